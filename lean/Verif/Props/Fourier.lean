import Mathlib.Algebra.BigOperators.Group.List.Lemmas
import Mathlib.Tactic.Ring
import Mathlib.Algebra.BigOperators.Field
import Mathlib.RingTheory.RootsOfUnity.PrimitiveRoots
import Verif.Scalar.Fourier
import Verif.Props.Reductions

/-!
# Fourier transforms of scalar arrays

**C82** Transforms act along the named axes and rename them; the other axes are untouched; the transform along several axes does not
depend on the order in which they are listed; the inverse transform undoes the transform.
-/

namespace NA
open Dict

namespace SA
variable {α : Type}

theorem nd_shape {a : SA α} (ha : a.WF) : a.nd.shape = a.axes.map a.size1 := by
  have h1 : a.nd.shape.length = a.axes.length := ha.1
  apply List.ext_getElem
  · simp [h1]
  · intro i h2 h3
    have h4 : i < a.axes.length := by omega
    have := get?_shape ha h4
    simp [size1, this]

/-- The line of `a` along `x` through the named index `e`. -/
def lineAlong (a : SA α) (x : String) (n : Nat) (e : String → Nat) : List α :=
  (List.range n).map (fun k => a.at' (Function.update e x k))

/-- The shape of an array is known from that of the numpy array. -/
theorem shape_rename {axes axes' : List String} (hn' : axes'.Nodup) {nd : ND α} {f : String → String} (hf : axes' = axes.map f)
    {sz : String → Nat} (hs : nd.shape = axes.map sz) {ax : String} (hax : ax ∈ axes) :
    get? (SA.mk axes' nd).shape (f ax) = some (sz ax) := by
  have hw : (SA.mk axes' nd).WF := ⟨by rw [ND.ndim, hs, hf]; simp, hn'⟩
  obtain ⟨i, hi, rfl⟩ := List.getElem_of_mem hax
  have hi' : i < axes'.length := by rw [hf]; simpa using hi
  have h1 := get?_shape hw (i := i) hi'
  have h2 : axes'[i] = f axes[i] := by simp [hf]
  have h3 : (SA.mk axes' nd).axes[i]'hi' = f axes[i] := h2
  rw [h3] at h1
  rw [h1]
  simp [hs]

/-- **C82** A transform along `x` with the new name `y`: the axis `y` takes the place of `x`, and its size is the length of the transform; the element
at an index is an element of the transform of the line of `a` along `x` with the same index on the other axes. -/
theorem C82_fft (t : ND.Line α) (a : SA α) (ha : a.WF) (x y : String) (m : Nat) (hx : get? a.shape x = some m)
    (hy : y = x ∨ y ∉ a.axes) (n : Option Nat) (N : Nat) (hN : N = n.getD (t.default m)) (hpos : 1 ≤ N) :
    ∃ r, fftLike t a (x, y) n = .ok r ∧ r.WF ∧ r.axes = a.axes.map (fun ax => if ax = x then y else ax) ∧
      get? r.shape y = some (t.size N) ∧ (∀ ax, ax ≠ x → ax ≠ y → get? r.shape ax = get? a.shape ax) ∧
      (y ≠ x → get? r.shape x = none) ∧
      ∀ e, r.at' e = t.fn N (lineAlong a x m e) (e y) := by
  have hxa : x ∈ a.axes := by rw [← keys_shape ha]; exact mem_keys_of_get? hx
  obtain ⟨nd, h1, h2, h3⟩ := ND.alongAxis_named ha.2 (nd_shape ha) hxa (t.size N) (t.fn N)
  have hsz : a.size1 x = m := by simp [size1, hx]
  have hshape : a.nd.shape.getD (a.axes.idxOf x) 0 = m := by
    have := get?_shape_of_mem ha hxa
    rw [hx] at this
    injection this with this
    exact this.symm
  set f : String → String := fun ax => if ax = x then y else ax with hf
  have hinj : ∀ u ∈ a.axes, ∀ v ∈ a.axes, f u = f v → u = v := by
    intro u hu v hv huv
    simp only [hf] at huv
    split at huv <;> split at huv
    · rename_i g1 g2; rw [g1, g2]
    · rename_i g1 g2
      rcases hy with hy | hy
      · rw [g1, ← huv, hy]
      · exact absurd (huv ▸ hv) hy
    · rename_i g1 g2
      rcases hy with hy | hy
      · rw [g2, huv, hy]
      · exact absurd (huv ▸ hu) hy
    · exact huv
  have hnod : (a.axes.map f).Nodup := List.Nodup.map_on (fun u hu v hv => hinj u hu v hv) ha.2
  have hdim : nd.ndim = (a.axes.map f).length := by rw [ND.ndim, h2]; simp
  have hw : (SA.mk (a.axes.map f) nd).WF := ⟨hdim, hnod⟩
  refine ⟨⟨a.axes.map f, nd⟩, ?_, hw, rfl, ?_, ?_, ?_, ?_⟩
  · unfold fftLike
    simp only [pyTupleIndex, if_pos hxa, bind, Except.bind]
    have : a.nd.fft1 t n (a.axes.idxOf x) = .ok nd := by
      unfold ND.fft1
      dsimp only
      rw [hshape, ← hN, if_neg (by omega)]
      exact h1
    rw [this]
    exact mk?_of_wf hdim hnod
  · have := shape_rename hnod rfl h2 hxa
    simpa [hf] using this
  · intro ax g1 g2
    by_cases hm : ax ∈ a.axes
    · have := shape_rename hnod rfl h2 hm
      simp only [hf, if_neg g1] at this
      rw [this]
      obtain ⟨k, hk⟩ := exists_get?_of_mem (by rw [keys_shape ha]; exact hm : ax ∈ keys a.shape)
      simp [size1, hk]
    · rw [(get?_shape_none ha).2 hm, get?_shape_none hw]
      intro hh
      obtain ⟨u, hu, hu'⟩ := List.mem_map.1 hh
      simp only [hf] at hu'
      split at hu'
      · exact g2 hu'.symm
      · exact hm (hu' ▸ hu)
  · intro hne
    rw [get?_shape_none hw]
    intro hh
    obtain ⟨u, hu, hu'⟩ := List.mem_map.1 hh
    simp only [hf] at hu'
    split at hu'
    · exact hne hu'
    · next g => exact g hu'
  · intro e
    have h4 := h3 (fun ax => e (f ax))
    have h5 : a.axes.map (fun ax => e (f ax)) = (a.axes.map f).map e := by rw [List.map_map]; rfl
    rw [h5] at h4
    unfold at'
    rw [h4]
    have hfx : f x = y := by simp [hf]
    rw [hfx, hsz]
    congr 1
    unfold lineAlong
    apply List.map_congr_left
    intro k _
    unfold at'
    congr 1
    apply List.map_congr_left
    intro ax _
    by_cases h : ax = x
    · subst h; simp
    · simp [Function.update_of_ne h, hf, h]

/-- **C82** An axis which `a` lacks, no points, and a new name which is already taken by another axis raise `ValueError`. -/
theorem C82_fft_error (t : ND.Line α) (a : SA α) (ha : a.WF) (x y : String) (n : Option Nat)
    (h : x ∉ a.axes ∨ n = some 0 ∨ (y ≠ x ∧ y ∈ a.axes)) : fftLike t a (x, y) n = .error .valueError := by
  unfold fftLike
  by_cases hx : x ∈ a.axes
  · simp only [pyTupleIndex, if_pos hx, bind, Except.bind]
    by_cases hz : n.getD (t.default (a.nd.shape.getD (a.axes.idxOf x) 0)) < 1
    · unfold ND.fft1
      dsimp only
      rw [if_pos hz]
    · obtain ⟨nd, h1, h2, _⟩ := ND.alongAxis_named ha.2 (nd_shape ha) hx
        (t.size (n.getD (t.default (a.nd.shape.getD (a.axes.idxOf x) 0)))) (t.fn (n.getD (t.default (a.nd.shape.getD (a.axes.idxOf x) 0))))
      have h3 : a.nd.fft1 t n (a.axes.idxOf x) = .ok nd := by
        unfold ND.fft1
        dsimp only
        rw [if_neg hz]
        exact h1
      rw [h3]
      dsimp only
      rcases h with h | h | ⟨g1, g2⟩
      · exact absurd hx h
      · subst h; simp at hz
      · unfold mk?
        rw [if_neg (by rw [ND.ndim, h2]; simp), if_pos]
        intro hnod
        have hi := List.inj_on_of_nodup_map hnod hx g2
        simp [g1] at hi
        exact g1 hi.symm
  · simp only [pyTupleIndex, if_neg hx, bind, Except.bind]

/-- `t'` (with the argument `n'`) recovers lines of length `m` from their transforms by `t` (with the argument `n`). -/
def Recovers (t t' : ND.Line α) (m n n' : Nat) : Prop :=
  t'.size n' = m ∧ ∀ l : List α, l.length = m → ∀ j (h : j < l.length), t'.fn n' ((List.range (t.size n)).map (t.fn n l)) j = l[j]

/-- **C82** If the transform of lines can be undone, transforming along `x` with the new name `y` and back from `y` to `x` gives the array with its
axes in the same order. -/
theorem C82_round_trip (t t' : ND.Line α) (a : SA α) (ha : a.WF) (x y : String) (m : Nat) (hx : get? a.shape x = some m)
    (hy : y = x ∨ y ∉ a.axes) (n n' : Option Nat) (N N' : Nat) (hN : N = n.getD (t.default m)) (hpos : 1 ≤ N)
    (hN' : N' = n'.getD (t'.default (t.size N))) (hpos' : 1 ≤ N') (hrec : Recovers t t' m N N') :
    ∃ r r', fftLike t a (x, y) n = .ok r ∧ fftLike t' r (y, x) n' = .ok r' ∧ r'.axes = a.axes ∧ SameByName a r' := by
  obtain ⟨r, r1, r2, r3, r4, r5, r6, r7⟩ := C82_fft t a ha x y m hx hy n N hN hpos
  have hxa : x ∈ a.axes := by rw [← keys_shape ha]; exact mem_keys_of_get? hx
  obtain ⟨r', q1, q2, q3, q4, q5, q6, q7⟩ := C82_fft t' r r2 y x (t.size N) r4 (by
    by_cases h : y = x
    · exact Or.inl h.symm
    · exact Or.inr ((get?_shape_none r2).1 (r6 h))) n' N' hN' hpos'
  refine ⟨r, r', r1, q1, ?_, ?_, ?_⟩
  · rw [q3, r3, List.map_map]
    conv_rhs => rw [← List.map_id a.axes]
    apply List.map_congr_left
    intro ax hax
    simp only [Function.comp, id]
    by_cases h : ax = x
    · simp [h]
    · rw [if_neg h]
      rcases hy with hy | hy
      · subst hy; rw [if_neg h]
      · rw [if_neg]; rintro rfl; exact hy hax
  · intro ax
    by_cases h : ax = x
    · subst h; rw [hx, q4, hrec.1]
    · by_cases h' : ax = y
      · subst h'
        rw [q6 (fun hh => h hh.symm)]
        rcases hy with hy | hy
        · exact absurd hy h
        · exact (get?_shape_none ha).2 hy
      · rw [q5 ax h' h, r5 ax h h']
  · intro e he
    rw [q7]
    have hlen : (lineAlong a x m e).length = m := by simp [lineAlong]
    have hl : lineAlong r y (t.size N) e = (List.range (t.size N)).map (t.fn N (lineAlong a x m e)) := by
      unfold lineAlong
      apply List.map_congr_left
      intro k _
      rw [r7]
      simp only [Function.update_self]
      congr 1
      unfold lineAlong
      apply List.map_congr_left
      intro j _
      apply at'_congr
      intro ax hax
      by_cases h : ax = x
      · subst h; simp
      · rw [Function.update_of_ne h, Function.update_of_ne h]
        by_cases h' : ax = y
        · subst h'
          rcases hy with hy | hy
          · exact absurd hy h
          · exact absurd hax hy
        · rw [Function.update_of_ne h']
    have hex : e x < m := he x m hx
    rw [hl, hrec.2 _ hlen (e x) (by rw [hlen]; exact hex)]
    simp [lineAlong]

/-! ### Several axes -/

/-- Sizes and elements after transforms along named axes, one after the other. -/
def after : List (String × Nat × ND.Line α) → (String → Nat) → ((String → Nat) → α) → (String → Nat) × ((String → Nat) → α)
  | [], sz, F => (sz, F)
  | (ax, n, t) :: l, sz, F =>
    after l (fun x => if x = ax then t.size n else sz x)
      (fun e => t.fn n ((List.range (sz ax)).map (fun k => F (Function.update e ax k))) (e ax))

theorem steps_named {axes : List String} (hn : axes.Nodup) : ∀ (l : List (String × Nat × ND.Line α)) {sz : String → Nat}
    {F : (String → Nat) → α} {v : ND α}, v.shape = axes.map sz → (∀ e, v.get (axes.map e) = F e) →
    (∀ p ∈ l, p.1 ∈ axes ∧ 1 ≤ p.2.1) →
    ∃ r, v.steps (l.map (fun p => (axes.idxOf p.1, p.2.1, p.2.2))) = .ok r ∧ r.shape = axes.map (after l sz F).1 ∧
      ∀ e, r.get (axes.map e) = (after l sz F).2 e
  | [], sz, F, v, h1, h2, _ => ⟨v, rfl, h1, h2⟩
  | (ax, n, t) :: l, sz, F, v, h1, h2, h3 => by
    obtain ⟨g1, g2⟩ := h3 (ax, n, t) (by simp)
    obtain ⟨r, r1, r2, r3⟩ := ND.alongAxis_named hn h1 g1 (t.size n) (t.fn n)
    obtain ⟨r', q1, q2, q3⟩ := steps_named hn l r2 (F := fun e => t.fn n ((List.range (sz ax)).map
      (fun k => F (Function.update e ax k))) (e ax)) (by
        intro e
        rw [r3]
        simp only [h2]) (fun p hp => h3 p (by simp [hp]))
    refine ⟨r', ?_, q2, q3⟩
    unfold ND.steps
    rw [List.map_cons, List.foldlM_cons]
    have : ND.fft1 t (some n) (axes.idxOf ax) v = .ok r := by
      unfold ND.fft1
      dsimp only [Option.getD_some]
      rw [if_neg (by dsimp only at g2; omega)]
      exact r1
    dsimp only
    rw [this]
    exact q1

theorem steps_error_of_zero {l : List (ND.Step α)} (h : ∃ p ∈ l, p.2.1 = 0) {v : ND α} (hv : ∀ p ∈ l, p.1 < v.ndim) :
    v.steps l = .error .valueError := by
  induction l generalizing v with
  | nil => obtain ⟨p, hp, _⟩ := h; cases hp
  | cons s l ih =>
    obtain ⟨p, n, t⟩ := s
    unfold ND.steps
    rw [List.foldlM_cons]
    dsimp only
    by_cases hz : n = 0
    · subst hz
      have : ND.fft1 t (some 0) p v = .error .valueError := rfl
      rw [this]; rfl
    · have h2 := hv (p, n, t) (by simp)
      have : ND.fft1 t (some n) p v = .ok ⟨v.shape.set p (t.size n), fun i => t.fn n (v.line p i) (i.getD p 0)⟩ := by
        unfold ND.fft1
        dsimp only [Option.getD_some]
        rw [if_neg (by omega), ND.alongAxis, if_pos h2]
      rw [this]
      obtain ⟨s', hs', hs0⟩ := h
      rcases List.mem_cons.1 hs' with rfl | hs'
      · exact absurd hs0 hz
      · refine ih ⟨s', hs', hs0⟩ ?_
        intro s'' hs''
        have := hv s'' (by simp [hs''])
        simpa [ND.ndim] using this

section linear
variable {K : Type} [CommRing K]

/-- The coefficient of element `j` of the line in element `k` of its transform. -/
def coefficient (w : Nat → Nat → Nat → K) (n k j : Nat) : K := if j < n then w n k j else 0

theorem slabEnvs_one (ax : String) (sz e : String → Nat) :
    slabEnvs [ax] sz e = (List.range (sz ax)).map (fun k => Function.update e ax k) := by
  unfold slabEnvs
  have : ndIndices ([ax].map sz) = (List.range (sz ax)).map (fun k => [k]) := by
    simp [ndIndices]
    induction List.range (sz ax) with
    | nil => rfl
    | cons x l ih => simp [List.flatMap_cons, ih]
  rw [this, List.map_map]
  apply List.map_congr_left
  intro k _
  funext x
  simp only [Function.comp, slabEnv, Function.update_apply, List.mem_singleton]
  by_cases h : x = ax
  · subst h; simp
  · simp [h]

theorem sum_flatMap' {ι κ : Type} (l : List ι) (f : ι → List κ) (g : κ → K) :
    ((l.flatMap f).map g).sum = (l.map (fun i => ((f i).map g).sum)).sum := by
  induction l with
  | nil => rfl
  | cons x l ih => simp [List.flatMap_cons, ih]

theorem mul_sum' {ι : Type} (l : List ι) (c : K) (g : ι → K) : c * (l.map g).sum = (l.map (fun i => c * g i)).sum := by
  induction l with
  | nil => simp
  | cons x l ih => simp [mul_add, ih]

theorem after_linear (w : Nat → Nat → Nat → K) (N : String → Nat) : ∀ (L : List String), L.Nodup → ∀ (sz : String → Nat)
    (F : (String → Nat) → K),
    (after (L.map (fun ax => (ax, N ax, ND.dft w))) sz F).1 = (fun ax => if ax ∈ L then N ax else sz ax) ∧
    ∀ e, (after (L.map (fun ax => (ax, N ax, ND.dft w))) sz F).2 e =
      ((slabEnvs L sz e).map (fun i => (L.map (fun ax => coefficient w (N ax) (e ax) (i ax))).prod * F i)).sum
  | [], _, sz, F => by
    refine ⟨by simp [after], fun e => ?_⟩
    have : slabEnvs [] sz e = [e] := by
      simp [slabEnvs, ndIndices]
      funext ax
      simp [slabEnv]
    simp [after, this]
  | ax :: L, hL, sz, F => by
    rw [List.nodup_cons] at hL
    obtain ⟨hax, hL⟩ := hL
    obtain ⟨ih1, ih2⟩ := after_linear w N L hL (fun x => if x = ax then (ND.dft w).size (N ax) else sz x)
      (fun e => (ND.dft w).fn (N ax) ((List.range (sz ax)).map (fun k => F (Function.update e ax k))) (e ax))
    refine ⟨?_, fun e => ?_⟩
    · show (after _ _ _).1 = _
      rw [List.map_cons, after, ih1]
      funext x
      by_cases h1 : x = ax
      · subst h1; simp [hax, ND.dft]
      · simp [h1]
    · rw [List.map_cons, after, ih2]
      have hperm := slabEnvs_flatMap (A := [ax]) (B := L) (by simp) hL (by
        intro x hx; simp only [List.mem_singleton]; rintro rfl; exact hax hx) sz e
      have hsz : slabEnvs L (fun x => if x = ax then (ND.dft w).size (N ax) else sz x) e = slabEnvs L sz e := by
        unfold slabEnvs
        rw [List.map_congr_left (g := sz)]
        intro x hx
        rw [if_neg]; rintro rfl; exact hax hx
      rw [hsz]
      have hp2 : ((slabEnvs (ax :: L) sz e).map (fun i => ((ax :: L).map (fun ax => coefficient w (N ax) (e ax) (i ax))).prod * F i)).sum =
          (((slabEnvs L sz e).flatMap (slabEnvs [ax] sz)).map
            (fun i => ((ax :: L).map (fun ax => coefficient w (N ax) (e ax) (i ax))).prod * F i)).sum :=
        (hperm.map _).sum_eq
      rw [hp2, sum_flatMap']
      congr 1
      apply List.map_congr_left
      intro i hi
      have hie : i ax = e ax := ((mem_slabEnvs hL).1 hi).2 ax hax
      rw [slabEnvs_one, List.map_map]
      have hdft : (ND.dft w).fn (N ax) ((List.range (sz ax)).map (fun k => F (Function.update i ax k))) (i ax) =
          ((List.range (sz ax)).map (fun k => coefficient w (N ax) (e ax) k * F (Function.update i ax k))).sum := by
        simp only [ND.dft, List.length_map, List.length_range]
        congr 1
        apply List.map_congr_left
        intro k hk
        rw [List.mem_range] at hk
        rw [List.getD_eq_getElem _ _ (by simpa using hk), hie]
        simp [coefficient]
      rw [hdft, mul_sum']
      congr 1
      apply List.map_congr_left
      intro k _
      simp only [Function.comp, List.map_cons, List.prod_cons, Function.update_self]
      have : (L.map (fun x => coefficient w (N x) (e x) (Function.update i ax k x))) =
          (L.map (fun x => coefficient w (N x) (e x) (i x))) := by
        apply List.map_congr_left
        intro x hx
        rw [Function.update_of_ne]; rintro rfl; exact hax hx
      rw [this]
      ring

/-- The argument `s` gives the number of points `N` for every transformed axis (by default the size of the axis). -/
def Points (a : SA α) (axes : Dict String) (s : Option (Dict Nat)) (N : String → Nat) : Prop :=
  match s with
  | none => ∀ ax ∈ axes.keys, get? a.shape ax = some (N ax)
  | some s => (∀ ax, ax ∈ s.keys ↔ ax ∈ axes.keys) ∧ ∀ ax ∈ axes.keys, get? s ax = some (N ax)

/-- The new name of an axis. -/
def renamed (axes : Dict String) (ax : String) : String := (get? axes ax).getD ax

theorem fftnLike_eq {a : SA α} (ha : a.WF) {axes : Dict String} (hsub : axes.keys ⊆ a.axes) {s : Option (Dict Nat)}
    {N : String → Nat} (hs : Points a axes s N) (plan : List (Nat × Nat) → R (List (ND.Step α))) :
    fftnLike plan a axes s = (plan (axes.keys.map (fun ax => (a.axes.idxOf ax, N ax))) >>= fun l => a.nd.steps l >>= fun nd =>
      mk? nd (a.axes.map (renamed axes))) := by
  unfold fftnLike
  rw [keys_shape ha, if_neg (not_not.2 hsub)]
  dsimp only
  have hk : (fftSizes a axes s).keys = (fftSizes a axes s).keys ∧ (∀ ax, ax ∈ (fftSizes a axes s).keys ↔ ax ∈ axes.keys) ∧
      ∀ ax ∈ axes.keys, get? (fftSizes a axes s) ax = some (N ax) := by
    cases s with
    | none =>
      refine ⟨rfl, ?_, ?_⟩
      · intro ax; simp [fftSizes, keys]
      · intro ax hax
        obtain ⟨v, hv⟩ := exists_get?_of_mem hax
        have h1 := hs ax hax
        have : get? (fftSizes a axes none) ax = (get? axes ax).map (fun _ => (get? a.shape ax).getD 0) := by
          unfold fftSizes
          clear hs hv hax hsub
          induction axes with
          | nil => rfl
          | cons p l ih =>
            rw [List.map_cons, get?_cons, get?_cons]
            by_cases h : p.1 = ax
            · simp [h]
            · simp only [h, if_false]; exact ih
        rw [this, hv, h1]; rfl
    | some s => exact ⟨rfl, hs.1, hs.2⟩
  rw [if_neg (not_not.2 ⟨fun x hx => (hk.2.1 x).2 hx, fun x hx => (hk.2.1 x).1 hx⟩)]
  have hm : axes.keys.map (fun ax => (a.axes.idxOf ax, (get? (fftSizes a axes s) ax).getD 0)) =
      axes.keys.map (fun ax => (a.axes.idxOf ax, N ax)) := by
    apply List.map_congr_left
    intro ax hax
    rw [hk.2.2 ax hax]; rfl
  rw [hm]
  rfl

/-- **C82** `np.fft.fftn(a, axes, s)` and `np.fft.ifftn`: every listed axis is renamed in place and gets the requested number of points, the other axes
are unchanged, and the element at an index is the sum over the slab of `a` along the listed axes of the elements, each with the product of the coefficients
for every listed axis. -/
theorem C82_fftn (w : Nat → Nat → Nat → K) (a : SA K) (ha : a.WF) (axes : Dict String) (hd : axes.WF) (hsub : axes.keys ⊆ a.axes)
    (s : Option (Dict Nat)) (N : String → Nat) (hs : Points a axes s N) (hN : ∀ ax ∈ axes.keys, 1 ≤ N ax)
    (hnew : (a.axes.map (renamed axes)).Nodup) :
    ∃ r, fftnLike (ND.fftnPlan (ND.dft w)) a axes s = .ok r ∧ r.WF ∧ r.axes = a.axes.map (renamed axes) ∧
      (∀ ax ∈ a.axes, get? r.shape (renamed axes ax) = if ax ∈ axes.keys then some (N ax) else get? a.shape ax) ∧
      ∀ e l, IsSlab a axes.keys (fun ax => e (renamed axes ax)) l →
        r.at' e = (l.map (fun i =>
          (axes.keys.map (fun ax => coefficient w (N ax) (e (renamed axes ax)) (i ax))).prod * a.at' i)).sum := by
  have hk : axes.keys.Nodup := hd
  have hkr : axes.keys.reverse.Nodup := List.nodup_reverse.2 hk
  obtain ⟨nd, h1, h2, h3⟩ := steps_named ha.2 (axes.keys.reverse.map (fun ax => (ax, N ax, ND.dft w))) (nd_shape ha)
    (F := a.at') (fun e => rfl) (by
      intro p hp
      obtain ⟨ax, hax, rfl⟩ := List.mem_map.1 hp
      rw [List.mem_reverse] at hax
      exact ⟨hsub hax, hN ax hax⟩)
  obtain ⟨g1, g2⟩ := after_linear w N axes.keys.reverse hkr a.size1 a.at'
  rw [g1] at h2
  have hdim : nd.ndim = (a.axes.map (renamed axes)).length := by rw [ND.ndim, h2]; simp
  have hw : (SA.mk (a.axes.map (renamed axes)) nd).WF := ⟨hdim, hnew⟩
  refine ⟨⟨a.axes.map (renamed axes), nd⟩, ?_, hw, rfl, ?_, ?_⟩
  · rw [fftnLike_eq ha hsub hs]
    unfold ND.fftnPlan
    simp only [bind, Except.bind]
    have : (axes.keys.map (fun ax => (a.axes.idxOf ax, N ax))).reverse.map (fun p => (p.1, p.2, ND.dft w)) =
        (axes.keys.reverse.map (fun ax => (ax, N ax, ND.dft w))).map (fun p => (a.axes.idxOf p.1, p.2.1, p.2.2)) := by
      rw [← List.map_reverse, List.map_map, List.map_map]; rfl
    rw [this, h1]
    exact mk?_of_wf hdim hnew
  · intro ax hax
    rw [shape_rename hnew rfl h2 hax]
    by_cases h : ax ∈ axes.keys
    · simp [h]
    · simp only [List.mem_reverse, h, if_false]
      obtain ⟨k, hk⟩ := exists_get?_of_mem (by rw [keys_shape ha]; exact hax : ax ∈ keys a.shape)
      simp [size1, hk]
  · intro e l hl
    have h4 := h3 (fun ax => e (renamed axes ax))
    have h5 : a.axes.map (fun ax => e (renamed axes ax)) = (a.axes.map (renamed axes)).map e := by rw [List.map_map]; rfl
    rw [h5] at h4
    unfold at'
    rw [h4, g2]
    have hslab : IsSlab a axes.keys (fun ax => e (renamed axes ax)) (slabEnvs axes.keys.reverse a.size1 (fun ax => e (renamed axes ax))) :=
      isSlab_slabEnvs ha hkr (by intro x hx; exact hsub (List.mem_reverse.1 hx)) (fun ax => List.mem_reverse) _
    rw [((hslab.perm hl).map _).sum_eq]
    congr 1
    apply List.map_congr_left
    intro i _
    rw [(((List.reverse_perm axes.keys).map _).prod_eq)]
    rfl

/-- **C82** The order in which the axes are listed does not matter. -/
theorem C82_fftn_order (w : Nat → Nat → Nat → K) (a : SA K) (ha : a.WF) (axes axes' : Dict String) (hd : axes.WF) (hp : axes.Perm axes')
    (hsub : axes.keys ⊆ a.axes) (s : Option (Dict Nat)) (N : String → Nat) (hs : Points a axes s N) (hN : ∀ ax ∈ axes.keys, 1 ≤ N ax)
    (hnew : (a.axes.map (renamed axes)).Nodup) :
    ∃ r r', fftnLike (ND.fftnPlan (ND.dft w)) a axes s = .ok r ∧ fftnLike (ND.fftnPlan (ND.dft w)) a axes' s = .ok r' ∧
      r.axes = r'.axes ∧ SameByName r r' := by
  have hkp : axes.keys.Perm axes'.keys := hp.map _
  have hkm : ∀ ax, ax ∈ axes.keys ↔ ax ∈ axes'.keys := fun ax => hkp.mem_iff
  have hd' : axes'.WF := hkp.nodup_iff.1 hd
  have hget : ∀ ax, get? axes ax = get? axes' ax := by
    intro ax
    cases h : get? axes ax with
    | some v => exact (get?_of_mem hd' (hp.mem_iff.1 (mem_of_get? h))).symm
    | none =>
      rw [get?_eq_none] at h
      exact ((get?_eq_none).2 (fun hh => h ((hkm ax).2 hh))).symm
  have hren : renamed axes = renamed axes' := by
    funext ax
    unfold renamed
    rw [hget]
  have hs' : Points a axes' s N := by
    cases s with
    | none => exact fun ax hax => hs ax ((hkm ax).2 hax)
    | some s => exact ⟨fun ax => (hs.1 ax).trans (hkm ax), fun ax hax => hs.2 ax ((hkm ax).2 hax)⟩
  obtain ⟨r, r1, r2, r3, r4, r5⟩ := C82_fftn w a ha axes hd hsub s N hs hN hnew
  obtain ⟨r', q1, q2, q3, q4, q5⟩ := C82_fftn w a ha axes' hd' (fun x hx => hsub ((hkm x).2 hx)) s N hs'
    (fun x hx => hN x ((hkm x).2 hx)) (by rw [← hren]; exact hnew)
  have hax : r.axes = r'.axes := by rw [r3, q3, hren]
  refine ⟨r, r', r1, q1, hax, ?_, ?_⟩
  · intro x
    by_cases hx : x ∈ r.axes
    · rw [r3] at hx
      obtain ⟨ax, hx1, rfl⟩ := List.mem_map.1 hx
      rw [r4 ax hx1]
      have := q4 ax hx1
      rw [← hren] at this
      rw [this]
      simp only [hkm]
    · rw [(get?_shape_none r2).2 hx, (get?_shape_none q2).2 (by rw [← hax]; exact hx)]
  · intro e _
    have hslab : IsSlab a axes.keys (fun ax => e (renamed axes ax)) (slabEnvs axes.keys a.size1 (fun ax => e (renamed axes ax))) :=
      isSlab_slabEnvs ha hd hsub (fun ax => Iff.rfl) _
    have hslab' : IsSlab a axes'.keys (fun ax => e (renamed axes' ax)) (slabEnvs axes.keys a.size1 (fun ax => e (renamed axes ax))) := by
      refine ⟨hslab.1, fun i => ?_⟩
      rw [hslab.2 i, ← hren]
      simp only [hkm]
    rw [r5 e _ hslab, q5 e _ hslab', ← hren]
    congr 1
    apply List.map_congr_left
    intro i _
    rw [(hkp.map _).prod_eq]

end linear

/-- Any transform along several axes is the same as transforms along single axes, one after the other in the order of the plan, followed by
renaming the axes. -/
theorem one_by_one (plan : List (Nat × Nat) → R (List (ND.Step α))) (a : SA α) (ha : a.WF) (axes : Dict String)
    (hsub : axes.keys ⊆ a.axes) (s : Option (Dict Nat)) (N : String → Nat) (hs : Points a axes s N)
    (l : List (String × Nat × ND.Line α))
    (hplan : plan (axes.keys.map (fun ax => (a.axes.idxOf ax, N ax))) = .ok (l.map (fun p => (a.axes.idxOf p.1, p.2.1, p.2.2))))
    (hlsub : ∀ p ∈ l, p.1 ∈ a.axes) :
    fftnLike plan a axes s =
      (l.foldlM (fun b p => fftLike p.2.2 b (p.1, p.1) (some p.2.1)) a >>= fun b => mk? b.nd (a.axes.map (renamed axes))) := by
  rw [fftnLike_eq ha hsub hs, hplan]
  simp only [bind, Except.bind]
  clear hplan hs
  have key : ∀ (l : List (String × Nat × ND.Line α)) (b : SA α), b.WF → b.axes = a.axes → (∀ p ∈ l, p.1 ∈ a.axes) →
      (l.foldlM (fun b p => fftLike p.2.2 b (p.1, p.1) (some p.2.1)) b : R (SA α)) =
        (b.nd.steps (l.map (fun p => (a.axes.idxOf p.1, p.2.1, p.2.2)))).map (fun nd => ⟨a.axes, nd⟩) := by
    intro l
    induction l with
    | nil =>
      intro b _ hb _
      obtain ⟨bx, bn⟩ := b
      cases hb
      rfl
    | cons p l ih =>
      intro b hb hba hsubl
      obtain ⟨ax, n, t⟩ := p
      rw [List.foldlM_cons, List.map_cons]
      unfold ND.steps
      rw [List.foldlM_cons]
      have hax : ax ∈ a.axes := hsubl (ax, n, t) (by simp)
      have hm : (b.axes.map (fun x => if x = ax then ax else x)) = a.axes := by
        rw [hba]
        conv_rhs => rw [← List.map_id a.axes]
        apply List.map_congr_left
        intro x _
        by_cases h : x = ax <;> simp [h]
      unfold fftLike
      dsimp only
      rw [hm, hba]
      simp only [pyTupleIndex, if_pos hax, bind, Except.bind]
      cases hf : b.nd.fft1 t (some n) (a.axes.idxOf ax) with
      | error e => rfl
      | ok nd =>
        dsimp only
        have hdim : nd.ndim = a.axes.length := by
          unfold ND.fft1 at hf
          dsimp only at hf
          split at hf
          · cases hf
          · unfold ND.alongAxis at hf
            split at hf
            · injection hf with hf
              rw [← hf, ND.ndim]
              simp only [List.length_set]
              have := hb.1
              rw [hba] at this
              exact this
            · cases hf
        rw [mk?_of_wf hdim ha.2]
        exact ih ⟨a.axes, nd⟩ ⟨hdim, ha.2⟩ rfl (fun p hp => hsubl p (by simp [hp]))
  rw [key l a ha rfl hlsub]
  cases a.nd.steps (l.map (fun p => (a.axes.idxOf p.1, p.2.1, p.2.2))) <;> rfl

/-- **C82** `np.fft.fftn` and `np.fft.ifftn` (with any transform `t` of lines) are transforms along single axes, the last listed axis first. -/
theorem C82_fftn_steps (t : ND.Line α) (a : SA α) (ha : a.WF) (axes : Dict String) (hsub : axes.keys ⊆ a.axes) (s : Option (Dict Nat))
    (N : String → Nat) (hs : Points a axes s N) :
    fftnLike (ND.fftnPlan t) a axes s =
      (axes.keys.reverse.foldlM (fun b ax => fftLike t b (ax, ax) (some (N ax))) a >>= fun b =>
        mk? b.nd (a.axes.map (renamed axes))) := by
  rw [one_by_one _ a ha axes hsub s N hs (axes.keys.reverse.map (fun ax => (ax, N ax, t))) (by
    unfold ND.fftnPlan
    rw [← List.map_reverse, List.map_map, List.map_map]; rfl) (by
    intro p hp
    obtain ⟨ax, hax, rfl⟩ := List.mem_map.1 hp
    exact hsub (List.mem_reverse.1 hax)), List.foldlM_map]

/-- **C82** `np.fft.rfftn` is the real transform along the last listed axis, then the complex transforms along the others. -/
theorem C82_rfftn_steps (t r : ND.Line α) (a : SA α) (ha : a.WF) (axes : Dict String) (hsub : axes.keys ⊆ a.axes) (s : Option (Dict Nat))
    (N : String → Nat) (hs : Points a axes s N) (ks : List String) (x : String) (hk : axes.keys = ks ++ [x]) :
    fftnLike (ND.rfftnPlan t r) a axes s =
      (fftLike r a (x, x) (some (N x)) >>= fun b => ks.reverse.foldlM (fun b ax => fftLike t b (ax, ax) (some (N ax))) b >>= fun b =>
        mk? b.nd (a.axes.map (renamed axes))) := by
  rw [one_by_one _ a ha axes hsub s N hs ((x, N x, r) :: ks.reverse.map (fun ax => (ax, N ax, t))) (by
    unfold ND.rfftnPlan
    rw [hk, List.map_append, List.reverse_append]
    simp only [List.map_cons, List.map_nil, List.reverse_cons, List.reverse_nil, List.nil_append, List.cons_append]
    rw [← List.map_reverse, List.map_map, List.map_map]; rfl) (by
    intro p hp
    rcases List.mem_cons.1 hp with rfl | hp
    · exact hsub (by rw [hk]; simp)
    · obtain ⟨ax, hax, rfl⟩ := List.mem_map.1 hp
      exact hsub (by rw [hk]; exact List.mem_append_left _ (List.mem_reverse.1 hax))), List.foldlM_cons]
  dsimp only
  cases fftLike r a (x, x) (some (N x)) with
  | error e => rfl
  | ok b =>
    simp only [bind, Except.bind]
    rw [List.foldlM_map]

/-- **C82** `np.fft.irfftn` is the complex transforms along all the listed axes but the last one, then the real transform along the last one. -/
theorem C82_irfftn_steps (t r : ND.Line α) (a : SA α) (ha : a.WF) (axes : Dict String) (hsub : axes.keys ⊆ a.axes) (s : Option (Dict Nat))
    (N : String → Nat) (hs : Points a axes s N) (ks : List String) (x : String) (hk : axes.keys = ks ++ [x]) :
    fftnLike (ND.irfftnPlan t r) a axes s =
      (ks.foldlM (fun b ax => fftLike t b (ax, ax) (some (N ax))) a >>= fun b => fftLike r b (x, x) (some (N x)) >>= fun b =>
        mk? b.nd (a.axes.map (renamed axes))) := by
  rw [one_by_one _ a ha axes hsub s N hs (ks.map (fun ax => (ax, N ax, t)) ++ [(x, N x, r)]) (by
    unfold ND.irfftnPlan
    rw [hk, List.map_append, List.reverse_append]
    simp only [List.map_cons, List.map_nil, List.reverse_cons, List.reverse_nil, List.nil_append, List.cons_append, List.map_append,
      List.reverse_reverse]
    rw [List.map_map, List.map_map]; rfl) (by
    intro p hp
    rcases List.mem_append.1 hp with hp | hp
    · obtain ⟨ax, hax, rfl⟩ := List.mem_map.1 hp
      exact hsub (by rw [hk]; exact List.mem_append_left _ hax)
    · rw [List.mem_singleton.1 hp]
      exact hsub (by rw [hk]; simp)), List.foldlM_append, List.foldlM_map]
  simp only [bind, Except.bind]
  cases (ks.foldlM (fun b ax => fftLike t b (ax, ax) (some (N ax))) a : R (SA α)) with
  | error e => rfl
  | ok b =>
    dsimp only
    rw [List.foldlM_cons]
    simp only [bind, Except.bind]
    cases fftLike r b (x, x) (some (N x)) <;> rfl

/-- **C82** Listing an axis which `a` lacks, and a dictionary `s` with other keys than `axes`, raise `ValueError`. -/
theorem C82_fftn_error (plan : List (Nat × Nat) → R (List (ND.Step α))) (a : SA α) (ha : a.WF) (axes : Dict String) (s : Option (Dict Nat))
    (h : ¬ axes.keys ⊆ a.axes ∨ ∃ d, s = some d ∧ ∃ ax, ¬ (ax ∈ d.keys ↔ ax ∈ axes.keys)) :
    fftnLike plan a axes s = .error .valueError := by
  unfold fftnLike
  rw [keys_shape ha]
  by_cases hs : axes.keys ⊆ a.axes
  · rw [if_neg (not_not.2 hs)]
    rcases h with h | ⟨d, rfl, ax, hax⟩
    · exact absurd hs h
    · dsimp only [fftSizes]
      rw [if_pos]
      rintro ⟨h1, h2⟩
      exact hax ⟨fun h => h2 h, fun h => h1 h⟩
  · rw [if_pos hs]

/-- **C82** Two transformed axes with the same new name, or a new name which another axis has and keeps, raise `ValueError`. -/
theorem C82_fftn_collision (t : ND.Line α) (a : SA α) (ha : a.WF) (axes : Dict String) (hsub : axes.keys ⊆ a.axes)
    (s : Option (Dict Nat)) (N : String → Nat) (hs : Points a axes s N) (hnew : ¬ (a.axes.map (renamed axes)).Nodup) :
    fftnLike (ND.fftnPlan t) a axes s = .error .valueError := by
  rw [fftnLike_eq ha hsub hs]
  unfold ND.fftnPlan
  simp only [bind, Except.bind]
  by_cases hz : ∃ ax ∈ axes.keys, N ax = 0
  · obtain ⟨ax, hax, h0⟩ := hz
    rw [steps_error_of_zero]
    · refine ⟨(a.axes.idxOf ax, N ax, t), ?_, h0⟩
      rw [← List.map_reverse, List.map_map]
      exact List.mem_map.2 ⟨ax, List.mem_reverse.2 hax, rfl⟩
    · intro p hp
      rw [← List.map_reverse, List.map_map] at hp
      obtain ⟨ax, hax, rfl⟩ := List.mem_map.1 hp
      rw [ha.1]
      exact idxOf_lt (hsub (List.mem_reverse.1 hax))
  · obtain ⟨nd, h1, h2, h3⟩ := steps_named ha.2 (axes.keys.reverse.map (fun ax => (ax, N ax, t))) (nd_shape ha)
      (F := a.at') (fun e => rfl) (by
        intro p hp
        obtain ⟨ax, hax, rfl⟩ := List.mem_map.1 hp
        rw [List.mem_reverse] at hax
        refine ⟨hsub hax, ?_⟩
        dsimp only
        by_contra hh
        exact hz ⟨ax, hax, by omega⟩)
    have : (axes.keys.map (fun ax => (a.axes.idxOf ax, N ax))).reverse.map (fun p => (p.1, p.2, t)) =
        (axes.keys.reverse.map (fun ax => (ax, N ax, t))).map (fun p => (a.axes.idxOf p.1, p.2.1, p.2.2)) := by
      rw [← List.map_reverse, List.map_map, List.map_map]; rfl
    rw [this, h1]
    dsimp only
    unfold mk?
    rw [if_neg (by rw [ND.ndim, h2]; simp), if_pos hnew]

/-! ### Round trips along several axes -/

/-- Two functions of named indices agree in range. -/
def AgreeOn (axes : List String) (sz : String → Nat) (F G : (String → Nat) → α) : Prop :=
  ∀ e, (∀ ax ∈ axes, e ax < sz ax) → F e = G e

theorem after_append (l l' : List (String × Nat × ND.Line α)) (sz : String → Nat) (F : (String → Nat) → α) :
    after (l ++ l') sz F = after l' (after l sz F).1 (after l sz F).2 := by
  induction l generalizing sz F with
  | nil => rfl
  | cons p l ih =>
    obtain ⟨ax, n, t⟩ := p
    rw [List.cons_append, after, after, ih]

theorem after_congr {axes : List String} (l : List (String × Nat × ND.Line α)) (hl : ∀ p ∈ l, p.1 ∈ axes)
    {sz sz' : String → Nat} (hsz : ∀ ax ∈ axes, sz ax = sz' ax) {F G : (String → Nat) → α} (h : AgreeOn axes sz F G) :
    (∀ ax ∈ axes, (after l sz F).1 ax = (after l sz' G).1 ax) ∧ AgreeOn axes (after l sz F).1 (after l sz F).2 (after l sz' G).2 := by
  induction l generalizing sz sz' F G with
  | nil => exact ⟨hsz, h⟩
  | cons p l ih =>
    obtain ⟨x, n, t⟩ := p
    rw [after, after]
    refine ih (fun p hp => hl p (by simp [hp])) ?_ ?_
    · intro ax hax
      rw [hsz ax hax]
    · intro e he
      have hx : x ∈ axes := hl (x, n, t) (by simp)
      rw [hsz x hx]
      refine congrArg (fun l => t.fn n l (e x)) ?_
      apply List.map_congr_left
      intro k hk
      rw [List.mem_range] at hk
      refine h _ ?_
      intro ax hax
      by_cases h1 : ax = x
      · subst h1; rw [Function.update_self, hsz _ hx]; exact hk
      · rw [Function.update_of_ne h1]
        have := he ax hax
        simpa [h1] using this

/-- Undoing the transforms in the opposite order. -/
theorem after_undo {axes : List String} (t t' : ND.Line α) (N : String → Nat) (L : List String) (hL : L ⊆ axes) (hnd : L.Nodup)
    (sz : String → Nat) (F : (String → Nat) → α) (hrec : ∀ ax ∈ L, Recovers t t' (sz ax) (N ax) (N ax)) :
    (∀ ax ∈ axes, (after (L.map (fun ax => (ax, N ax, t)) ++ L.reverse.map (fun ax => (ax, N ax, t'))) sz F).1 ax = sz ax) ∧
    AgreeOn axes sz (after (L.map (fun ax => (ax, N ax, t)) ++ L.reverse.map (fun ax => (ax, N ax, t'))) sz F).2 F := by
  induction L generalizing sz F with
  | nil => exact ⟨fun _ _ => rfl, fun _ _ => rfl⟩
  | cons x L ih =>
    rw [List.nodup_cons] at hnd
    rw [List.map_cons, List.reverse_cons, List.map_append, List.map_singleton, List.cons_append, after, ← List.append_assoc, after_append]
    set sz1 : String → Nat := fun y => if y = x then t.size (N x) else sz y with hsz1
    set F1 : (String → Nat) → α := fun e => t.fn (N x) ((List.range (sz x)).map (fun k => F (Function.update e x k))) (e x) with hF1
    obtain ⟨g1, g2⟩ := ih (fun y hy => hL (by simp [hy])) hnd.2 sz1 F1 (by
      intro ax hax
      have : ax ≠ x := by rintro rfl; exact hnd.1 hax
      simp only [hsz1, if_neg this]
      exact hrec ax (by simp [hax]))
    have hx : x ∈ axes := hL (by simp)
    have hg2 : AgreeOn axes (after (L.map (fun ax => (ax, N ax, t)) ++ L.reverse.map (fun ax => (ax, N ax, t'))) sz1 F1).1
        (after (L.map (fun ax => (ax, N ax, t)) ++ L.reverse.map (fun ax => (ax, N ax, t'))) sz1 F1).2 F1 := by
      intro e he
      exact g2 e (fun ax hax => by rw [← g1 ax hax]; exact he ax hax)
    obtain ⟨k1, k2⟩ := after_congr [(x, N x, t')] (by simp [hx]) g1 hg2
    obtain ⟨hsize, hrx⟩ := hrec x (by simp)
    have hfin : ∀ ax ∈ axes, (after [(x, N x, t')] sz1 F1).1 ax = sz ax := by
      intro ax _
      simp only [after, hsz1]
      by_cases h : ax = x
      · subst h; simp [hsize]
      · simp [h]
    refine ⟨fun ax hax => (k1 ax hax).trans (hfin ax hax), ?_⟩
    intro e he
    rw [k2 e (fun ax hax => by rw [k1 ax hax, hfin ax hax]; exact he ax hax)]
    simp only [after]
    have hs1 : sz1 x = t.size (N x) := by simp [hsz1]
    rw [hs1]
    have hl : (List.range (t.size (N x))).map (fun k => F1 (Function.update e x k)) =
        (List.range (t.size (N x))).map (t.fn (N x) ((List.range (sz x)).map (fun j => F (Function.update e x j)))) := by
      apply List.map_congr_left
      intro k _
      simp only [hF1, Function.update_self, Function.update_idem]
    rw [hl, hrx _ (by simp) (e x) (by simpa using he x hx)]
    simp

theorem steps_append (l l' : List (ND.Step α)) {v r : ND α} (h : v.steps l = .ok r) : v.steps (l ++ l') = r.steps l' := by
  unfold ND.steps at h ⊢
  rw [List.foldlM_append, h]
  rfl

/-- The dictionary which renames the axes back, in the opposite order. -/
def back (axes : Dict String) : Dict String := axes.reverse.map (fun p => (p.2, p.1))

theorem idxOf_map_inj {f : String → String} {l : List String} (hinj : ∀ u ∈ l, ∀ v ∈ l, f u = f v → u = v) {x : String} (hx : x ∈ l) :
    (l.map f).idxOf (f x) = l.idxOf x := by
  induction l with
  | nil => cases hx
  | cons y l ih =>
    by_cases h : y = x
    · subst h; simp
    · have h1 : f y ≠ f x := fun hh => h (hinj y (by simp) x hx hh)
      have h2 : x ∈ l := by
        rcases List.mem_cons.1 hx with rfl | h2
        · exact absurd rfl h
        · exact h2
      rw [List.map_cons, List.idxOf_cons_ne _ h1, List.idxOf_cons_ne _ h,
        ih (fun u hu v hv => hinj u (by simp [hu]) v (by simp [hv])) h2]

theorem fftn_undo (t t' : ND.Line α) (ht : ∀ n, t.size n = n) (a : SA α) (ha : a.WF)
    (axes : Dict String) (hd : axes.WF) (hsub : axes.keys ⊆ a.axes) (hnew : (a.axes.map (renamed axes)).Nodup)
    (hrec : ∀ ax ∈ axes.keys, ∃ m, get? a.shape ax = some m ∧ 1 ≤ m ∧ Recovers t t' m m m) :
    ∃ r r', fftnLike (ND.fftnPlan t) a axes none = .ok r ∧ fftnLike (ND.fftnPlan t') r (back axes) none = .ok r' ∧
      r'.axes = a.axes ∧ SameByName a r' := by
  set N := a.size1 with hN
  have hsz : ∀ ax ∈ axes.keys, get? a.shape ax = some (N ax) := by
    intro ax hax
    obtain ⟨m, hm, _⟩ := hrec ax hax
    simp [hN, size1, hm]
  have hpos : ∀ ax ∈ axes.keys, 1 ≤ N ax := by
    intro ax hax
    obtain ⟨m, hm, h1, _⟩ := hrec ax hax
    simpa [hN, size1, hm] using h1
  have hrec' : ∀ ax ∈ axes.keys, Recovers t t' (N ax) (N ax) (N ax) := by
    intro ax hax
    obtain ⟨m, hm, _, h1⟩ := hrec ax hax
    simpa [hN, size1, hm] using h1
  have hP : Points a axes none N := hsz
  have hinj : ∀ u ∈ a.axes, ∀ v ∈ a.axes, renamed axes u = renamed axes v → u = v :=
    fun u hu v hv => List.inj_on_of_nodup_map hnew hu hv
  have hk : axes.keys.Nodup := hd
  have hkr : axes.keys.reverse.Nodup := List.nodup_reverse.2 hk
  -- the first transform
  obtain ⟨nd, h1, h2, h3⟩ := steps_named ha.2 (axes.keys.reverse.map (fun ax => (ax, N ax, t))) (nd_shape ha)
    (F := a.at') (fun e => rfl) (by
      intro p hp
      obtain ⟨ax, hax, rfl⟩ := List.mem_map.1 hp
      rw [List.mem_reverse] at hax
      exact ⟨hsub hax, hpos ax hax⟩)
  have hafter : ∀ (L : List String) (F : (String → Nat) → α) (sz : String → Nat), (∀ ax, sz ax = N ax) →
      ∀ ax, (after (L.map (fun ax => (ax, N ax, t))) sz F).1 ax = N ax := by
    intro L
    induction L with
    | nil => intro F sz h ax; exact h ax
    | cons x L ih =>
      intro F sz h ax
      rw [List.map_cons, after]
      apply ih
      intro y
      by_cases hy : y = x
      · subst hy; simp [ht]
      · simp [hy, h]
  have h2' : nd.shape = a.axes.map N := by
    rw [h2]
    apply List.map_congr_left
    intro ax _
    exact hafter _ _ _ (fun _ => rfl) ax
  have hdim : nd.ndim = (a.axes.map (renamed axes)).length := by rw [ND.ndim, h2']; simp
  have hw : (SA.mk (a.axes.map (renamed axes)) nd).WF := ⟨hdim, hnew⟩
  have hplan : ∀ (l : List String) (b : List String) (M : String → Nat) (u : ND.Line α),
      (l.map (fun ax => (b.idxOf ax, M ax))).reverse.map (fun p => (p.1, p.2, u)) =
        (l.reverse.map (fun ax => (ax, M ax, u))).map (fun p => (b.idxOf p.1, p.2.1, p.2.2)) := by
    intro l b M u
    rw [← List.map_reverse, List.map_map, List.map_map]; rfl
  have e1 : fftnLike (ND.fftnPlan t) a axes none = .ok ⟨a.axes.map (renamed axes), nd⟩ := by
    rw [fftnLike_eq ha hsub hP]
    unfold ND.fftnPlan
    simp only [bind, Except.bind]
    rw [hplan, h1]
    exact mk?_of_wf hdim hnew
  set r : SA α := ⟨a.axes.map (renamed axes), nd⟩ with hr
  -- names
  have hren : ∀ p ∈ axes, renamed axes p.1 = p.2 := by
    intro p hp
    unfold renamed
    rw [get?_of_mem hd hp]; rfl
  have hbk : (back axes).keys = axes.reverse.map (fun p => p.2) := by
    unfold back keys
    rw [List.map_map]; rfl
  have hbmem : ∀ y, y ∈ (back axes).keys ↔ ∃ ax ∈ axes.keys, renamed axes ax = y := by
    intro y
    rw [hbk, List.mem_map]
    constructor
    · rintro ⟨p, hp, rfl⟩
      rw [List.mem_reverse] at hp
      exact ⟨p.1, List.mem_map.2 ⟨p, hp, rfl⟩, hren p hp⟩
    · rintro ⟨ax, hax, rfl⟩
      obtain ⟨p, hp, rfl⟩ := List.mem_map.1 hax
      exact ⟨p, List.mem_reverse.2 hp, (hren p hp).symm⟩
  have hbkeys : (back axes).keys = axes.keys.reverse.map (renamed axes) := by
    rw [hbk]
    unfold keys
    rw [← List.map_reverse, List.map_map]
    apply List.map_congr_left
    intro p hp
    exact (hren p (List.mem_reverse.1 hp)).symm
  have hbd : (back axes).WF := by
    show (back axes).keys.Nodup
    rw [hbkeys]
    exact List.Nodup.map_on (fun u hu v hv => hinj u (hsub (List.mem_reverse.1 hu)) v (hsub (List.mem_reverse.1 hv))) hkr
  have hbsub : (back axes).keys ⊆ r.axes := by
    intro y hy
    obtain ⟨ax, hax, rfl⟩ := (hbmem y).1 hy
    exact List.mem_map.2 ⟨ax, hsub hax, rfl⟩
  have hrs : ∀ ax ∈ a.axes, get? r.shape (renamed axes ax) = some (N ax) := fun ax hax => shape_rename hnew rfl h2' hax
  have hP2 : Points r (back axes) none (fun y => r.size1 y) := by
    intro y hy
    obtain ⟨ax, hax, rfl⟩ := (hbmem y).1 hy
    rw [hrs ax (hsub hax)]
    simp [size1, hrs ax (hsub hax)]
  have hnames : r.axes.map (renamed (back axes)) = a.axes := by
    rw [hr, List.map_map]
    conv_rhs => rw [← List.map_id a.axes]
    apply List.map_congr_left
    intro ax hax
    simp only [Function.comp, id]
    by_cases hm : ax ∈ axes.keys
    · obtain ⟨p, hp, rfl⟩ := List.mem_map.1 hm
      have : (p.2, p.1) ∈ back axes := List.mem_map.2 ⟨p, List.mem_reverse.2 hp, rfl⟩
      rw [hren p hp]
      show (get? (back axes) p.2).getD p.2 = p.1
      rw [get?_of_mem hbd this]; rfl
    · have h4 : renamed axes ax = ax := by
        unfold renamed
        rw [get?_eq_none.2 hm]; rfl
      rw [h4]
      show (get? (back axes) ax).getD ax = ax
      rw [get?_eq_none.2]
      · rfl
      · intro hh
        obtain ⟨u, hu, hu'⟩ := (hbmem ax).1 hh
        have := hinj u (hsub hu) ax hax (by rw [hu', h4])
        exact hm (this ▸ hu)
  -- the second transform
  have hl2 : ((back axes).keys.map (fun y => (r.axes.idxOf y, r.size1 y))).reverse.map (fun p => (p.1, p.2, t')) =
      (axes.keys.reverse.reverse.map (fun ax => (ax, N ax, t'))).map (fun p => (a.axes.idxOf p.1, p.2.1, p.2.2)) := by
    rw [hbkeys, List.map_map, ← List.map_reverse, List.map_map, List.map_map]
    apply List.map_congr_left
    intro ax hax
    have hax' : ax ∈ a.axes := hsub (by simpa using hax)
    have h5 : r.size1 (renamed axes ax) = N ax := by simp [size1, hrs ax hax']
    simp only [Function.comp]
    rw [h5, hr]
    dsimp only
    rw [idxOf_map_inj hinj hax']
  obtain ⟨nd', k1, k2, k3⟩ := steps_named ha.2
    (axes.keys.reverse.map (fun ax => (ax, N ax, t)) ++ axes.keys.reverse.reverse.map (fun ax => (ax, N ax, t'))) (nd_shape ha)
    (F := a.at') (fun e => rfl) (by
      intro p hp
      rcases List.mem_append.1 hp with hp | hp
      all_goals
        obtain ⟨ax, hax, rfl⟩ := List.mem_map.1 hp
        have hax' : ax ∈ axes.keys := by simpa using hax
        exact ⟨hsub hax', hpos ax hax'⟩)
  obtain ⟨u1, u2⟩ := after_undo (axes := a.axes) t t' N axes.keys.reverse (fun x hx => hsub (List.mem_reverse.1 hx)) hkr N a.at'
    (fun ax hax => hrec' ax (List.mem_reverse.1 hax))
  have k2' : nd'.shape = a.axes.map N := by
    rw [k2]
    apply List.map_congr_left
    intro ax hax
    exact u1 ax hax
  have hdim' : nd'.ndim = a.axes.length := by rw [ND.ndim, k2']; simp
  have hsame : ∀ ax ∈ a.axes, get? a.shape ax = some (N ax) := by
    intro ax hax
    obtain ⟨k, hk⟩ := exists_get?_of_mem (by rw [keys_shape ha]; exact hax : ax ∈ keys a.shape)
    simp [hN, size1, hk]
  have hw' : (SA.mk a.axes nd').WF := ⟨hdim', ha.2⟩
  refine ⟨r, ⟨a.axes, nd'⟩, e1, ?_, rfl, ?_, ?_⟩
  · rw [fftnLike_eq hw hbsub hP2]
    unfold ND.fftnPlan
    simp only [bind, Except.bind]
    rw [hl2, hnames]
    rw [List.map_append, steps_append _ _ h1] at k1
    rw [k1]
    exact mk?_of_wf hdim' ha.2
  · intro ax
    by_cases hax : ax ∈ a.axes
    · rw [hsame ax hax]
      have := shape_rename (axes := a.axes) (f := id) ha.2 (by simp) k2' hax
      exact this.symm
    · rw [(get?_shape_none ha).2 hax, (get?_shape_none hw').2 hax]
  · intro e he
    have := k3 e
    show a.at' e = nd'.get (a.axes.map e)
    rw [this]
    exact (u2 e (fun ax hax => he ax _ (hsame ax hax))).symm

/-- **C82** The inverse transform along several axes, with the names exchanged and the axes listed in any order, gives back the array with its axes in the
same order. -/
theorem C82_fftn_round_trip {K : Type} [CommRing K] (w w' : Nat → Nat → Nat → K) (a : SA K) (ha : a.WF)
    (axes : Dict String) (hd : axes.WF) (hsub : axes.keys ⊆ a.axes) (hnew : (a.axes.map (renamed axes)).Nodup)
    (hrec : ∀ ax ∈ axes.keys, ∃ m, get? a.shape ax = some m ∧ 1 ≤ m ∧ Recovers (ND.dft w) (ND.dft w') m m m)
    (axes' : Dict String) (hp : axes'.Perm (axes.map (fun p => (p.2, p.1)))) :
    ∃ r r', fftnLike (ND.fftnPlan (ND.dft w)) a axes none = .ok r ∧ fftnLike (ND.fftnPlan (ND.dft w')) r axes' none = .ok r' ∧
      r'.axes = a.axes ∧ SameByName a r' := by
  obtain ⟨r, r', h1, h2, h3, h4⟩ := fftn_undo (ND.dft w) (ND.dft w') (fun _ => rfl) a ha axes hd hsub hnew hrec
  have hpb : (back axes).Perm axes' := by
    refine List.Perm.trans ?_ hp.symm
    exact (List.reverse_perm axes).map _
  set N := a.size1 with hN
  have hP : Points a axes none N := by
    intro ax hax
    obtain ⟨m, hm, _⟩ := hrec ax hax
    simp [hN, size1, hm]
  have hpos : ∀ ax ∈ axes.keys, 1 ≤ N ax := by
    intro ax hax
    obtain ⟨m, hm, h1, _⟩ := hrec ax hax
    simpa [hN, size1, hm] using h1
  obtain ⟨r0, g1, g2, g3, g4, _⟩ := C82_fftn w a ha axes hd hsub none N hP hpos hnew
  rw [h1] at g1
  injection g1 with g1
  subst g1
  have hren : ∀ p ∈ axes, renamed axes p.1 = p.2 := by
    intro p hp
    unfold renamed
    rw [get?_of_mem hd hp]; rfl
  have hinj : ∀ u ∈ a.axes, ∀ v ∈ a.axes, renamed axes u = renamed axes v → u = v :=
    fun u hu v hv => List.inj_on_of_nodup_map hnew hu hv
  have hbkeys : (back axes).keys = axes.keys.reverse.map (renamed axes) := by
    unfold back keys
    rw [List.map_map, ← List.map_reverse, List.map_map]
    apply List.map_congr_left
    intro p hp
    exact (hren p (List.mem_reverse.1 hp)).symm
  have hbd : (back axes).WF := by
    show (back axes).keys.Nodup
    rw [hbkeys]
    exact List.Nodup.map_on (fun u hu v hv => hinj u (hsub (List.mem_reverse.1 hu)) v (hsub (List.mem_reverse.1 hv)))
      (List.nodup_reverse.2 hd)
  have hbsub : (back axes).keys ⊆ r.axes := by
    intro y hy
    rw [hbkeys] at hy
    obtain ⟨ax, hax, rfl⟩ := List.mem_map.1 hy
    rw [g3]
    exact List.mem_map.2 ⟨ax, hsub (List.mem_reverse.1 hax), rfl⟩
  have hrs : ∀ y ∈ (back axes).keys, ∃ m, get? r.shape y = some m ∧ 1 ≤ m := by
    intro y hy
    rw [hbkeys] at hy
    obtain ⟨ax, hax, rfl⟩ := List.mem_map.1 hy
    rw [List.mem_reverse] at hax
    refine ⟨N ax, ?_, hpos ax hax⟩
    rw [g4 ax (hsub hax), if_pos hax]
  have hbnew : (r.axes.map (renamed (back axes))).Nodup := by
    have : (fftnLike (ND.fftnPlan (ND.dft w')) r (back axes) none).isOk = true := by rw [h2]; rfl
    by_contra hcon
    rw [C82_fftn_collision (ND.dft w') r g2 (back axes) hbsub none (fun y => r.size1 y) (by
      intro y hy
      obtain ⟨m, hm, _⟩ := hrs y hy
      simp [size1, hm]) hcon] at this
    cases this
  obtain ⟨q, q', k1, k2, k3, k4⟩ := C82_fftn_order w' r g2 (back axes) axes' hbd hpb hbsub none (fun y => r.size1 y) (by
      intro y hy
      obtain ⟨m, hm, _⟩ := hrs y hy
      simp [size1, hm]) (by
      intro y hy
      obtain ⟨m, hm, h5⟩ := hrs y hy
      simpa [size1, hm] using h5) hbnew
  rw [h2] at k1
  injection k1 with k1
  subst k1
  refine ⟨r, q', h1, k2, by rw [← k3, h3], ?_, ?_⟩
  · intro ax
    rw [h4.1 ax, k4.1 ax]
  · intro e he
    rw [h4.2 e he]
    refine k4.2 e ?_
    intro ax n hn
    rw [← h4.1 ax] at hn
    exact he ax n hn

/-! ### The discrete Fourier transform -/

section roots
variable {K : Type} [Field K]

/-- `fft`: the coefficients `ω(n) ^ (k j)`. -/
def forward (ω : Nat → K) (n k j : Nat) : K := ω n ^ (k * j)

/-- `ifft`: the coefficients `ω(n) ^ (-k j) / n`. -/
def backward (ω : Nat → K) (n k j : Nat) : K := (ω n)⁻¹ ^ (k * j) / n

theorem sum_range_list {M : Type} [AddCommMonoid M] (n : Nat) (g : Nat → M) : ((List.range n).map g).sum = ∑ k ∈ Finset.range n, g k := rfl

/-- **C82** The discrete Fourier transform with a primitive root of unity of order `n` is undone by the inverse transform. -/
theorem C82_dft_inverse (ω : Nat → K) (n : Nat) (hn : (n : K) ≠ 0) (hω : IsPrimitiveRoot (ω n) n) :
    Recovers (ND.dft (forward ω)) (ND.dft (backward ω)) n n n := by
  refine ⟨rfl, ?_⟩
  intro l hl j hj
  have hn0 : 0 < n := by
    rcases Nat.eq_zero_or_pos n with h | h
    · subst h; simp at hn
    · exact h
  have h1 : (ND.dft (backward ω)).fn n ((List.range ((ND.dft (forward ω)).size n)).map ((ND.dft (forward ω)).fn n l)) j =
      ∑ k ∈ Finset.range n, backward ω n j k * ∑ i ∈ Finset.range n, forward ω n k i * l.getD i 0 := by
    simp only [ND.dft, List.length_map, List.length_range]
    rw [sum_range_list]
    apply Finset.sum_congr rfl
    intro k hk
    rw [Finset.mem_range] at hk
    rw [if_pos hk, List.getD_eq_getElem _ _ (by simpa using hk)]
    simp only [List.getElem_map, List.getElem_range]
    rw [sum_range_list, hl]
    congr 1
    apply Finset.sum_congr rfl
    intro i hi
    rw [if_pos (Finset.mem_range.1 hi)]
  rw [h1]
  have h2 : ∀ k, backward ω n j k * ∑ i ∈ Finset.range n, forward ω n k i * l.getD i 0 =
      ∑ i ∈ Finset.range n, backward ω n j k * forward ω n k i * l.getD i 0 := by
    intro k
    rw [Finset.mul_sum]
    apply Finset.sum_congr rfl
    intro i _
    ring
  simp only [h2]
  rw [Finset.sum_comm]
  have h0 : ω n ≠ 0 := hω.ne_zero hn0.ne'
  have h3 : ∀ i ∈ Finset.range n, ∑ k ∈ Finset.range n, backward ω n j k * forward ω n k i * l.getD i 0 =
      if i = j then l.getD i 0 else 0 := by
    intro i hi
    rw [Finset.mem_range] at hi
    rw [← Finset.sum_mul]
    have h4 : ∀ k, backward ω n j k * forward ω n k i = ((ω n)⁻¹ ^ j * ω n ^ i) ^ k / n := by
      intro k
      unfold backward forward
      rw [mul_pow, ← pow_mul, ← pow_mul, Nat.mul_comm k i]
      ring
    simp only [h4]
    rw [← Finset.sum_div]
    by_cases hij : i = j
    · subst hij
      have : (ω n)⁻¹ ^ i * ω n ^ i = 1 := by rw [← mul_pow, inv_mul_cancel₀ h0, one_pow]
      simp only [this, one_pow, Finset.sum_const, Finset.card_range, nsmul_eq_mul, mul_one, div_self hn, one_mul, if_true]
    · rw [if_neg hij]
      have hne : (ω n)⁻¹ ^ j * ω n ^ i ≠ 1 := by
        intro hh
        rw [inv_pow, inv_mul_eq_one₀ (pow_ne_zero _ h0)] at hh
        exact hij (hω.pow_inj hi (by omega) hh.symm)
      have hpow : ((ω n)⁻¹ ^ j * ω n ^ i) ^ n = 1 := by
        rw [mul_pow, ← pow_mul, ← pow_mul, Nat.mul_comm j, Nat.mul_comm i, pow_mul, pow_mul, hω.pow_eq_one, inv_pow, hω.pow_eq_one]
        simp
      have hsum : ∑ k ∈ Finset.range n, ((ω n)⁻¹ ^ j * ω n ^ i) ^ k = 0 := by
        have := geom_sum_mul ((ω n)⁻¹ ^ j * ω n ^ i) n
        rw [hpow, sub_self] at this
        rcases mul_eq_zero.1 this with h | h
        · exact h
        · exact absurd (sub_eq_zero.1 h) hne
      rw [hsum]; simp
  rw [Finset.sum_congr rfl h3, Finset.sum_ite_eq' (Finset.range n) j, if_pos (Finset.mem_range.2 (by omega)), List.getD_eq_getElem _ _ hj]

end roots

/-! ### Real transforms -/

/-- The lengths of `np.fft.rfft` (`fn` is the transform of lines). -/
def realLine (fn : Nat → List α → Nat → α) : ND.Line α := ⟨fun n => n / 2 + 1, fun m => m, fn⟩

/-- The lengths of `np.fft.irfft`. -/
def inverseRealLine (fn : Nat → List α → Nat → α) : ND.Line α := ⟨fun n => n, fun m => 2 * (m - 1), fn⟩

/-- **C82** `irfft` undoes `rfft` along a named axis if the number of points is given, or if it is even, whenever it does so for lines. -/
theorem C82_irfft (f g : Nat → List α → Nat → α) (a : SA α) (ha : a.WF) (x y : String) (m : Nat) (hx : get? a.shape x = some m)
    (hm : 1 ≤ m) (hy : y = x ∨ y ∉ a.axes) (n' : Option Nat) (hn' : n' = some m ∨ (n' = none ∧ m % 2 = 0))
    (hrec : ∀ l : List α, l.length = m → ∀ j (h : j < l.length), g m ((List.range (m / 2 + 1)).map (f m l)) j = l[j]) :
    ∃ r r', fftLike (realLine f) a (x, y) none = .ok r ∧ fftLike (inverseRealLine g) r (y, x) n' = .ok r' ∧ r'.axes = a.axes ∧
      SameByName a r' := by
  have h : m = n'.getD ((inverseRealLine g).default ((realLine f).size m)) := by
    rcases hn' with rfl | ⟨rfl, h2⟩
    · rfl
    · simp only [Option.getD_none, inverseRealLine, realLine]
      omega
  exact C82_round_trip (realLine f) (inverseRealLine g) a ha x y m hx hy none n' m m rfl hm h hm ⟨rfl, hrec⟩

/-- **C82 fails for `irfftn`**: unlike `np.fft.irfft`, `np.fft.irfftn` without `s` gives back 3 points instead of 4 after `np.fft.rfftn`, whatever the transforms of lines,
because the default of `s` is the shape of the transformed array. -/
theorem C82_irfftn_size_refuted (f g : Nat → List α → Nat → α) (t t' : ND.Line α) (v : List Nat → α) :
    ∃ r r', fftnLike (ND.rfftnPlan t (realLine f)) ⟨["x"], ⟨[4], v⟩⟩ [("x", "k")] none = .ok r ∧
      fftnLike (ND.irfftnPlan t' (inverseRealLine g)) r [("k", "x")] none = .ok r' ∧
      r'.shape = [("x", 3)] := by
  refine ⟨_, _, rfl, rfl, ?_⟩
  show [("x", 4 / 2 + 1)] = [("x", 3)]
  rfl

/-- With `s`, it gives 4 points. -/
theorem C82_irfftn_size (f g : Nat → List α → Nat → α) (t t' : ND.Line α) (v : List Nat → α) :
    ∃ r r', fftnLike (ND.rfftnPlan t (realLine f)) ⟨["x"], ⟨[4], v⟩⟩ [("x", "k")] none = .ok r ∧
      fftnLike (ND.irfftnPlan t' (inverseRealLine g)) r [("k", "x")] (some [("k", 4)]) = .ok r' ∧
      r'.shape = [("x", 4)] :=
  ⟨_, _, rfl, rfl, rfl⟩

/-! ### Examples -/

/-- A table of 2 by 2 numbers with one more axis. -/
def exWave : SA ℚ := ⟨["x", "t", "y"], ⟨[2, 1, 2], fun i => ([1, 5, 2, 7] : List ℚ).getD (i.getD 0 0 * 2 + i.getD 2 0) 0⟩⟩

/-- The root of unity of order 2 -/
def exRoot : Nat → ℚ := fun _ => -1

theorem exRoot_primitive : IsPrimitiveRoot (exRoot 2) 2 := by
  refine ⟨by norm_num [exRoot], ?_⟩
  intro l hl
  by_contra h
  have h1 : l % 2 = 1 := by omega
  have h2 : exRoot 2 ^ l = -1 := (Nat.odd_iff.2 h1).neg_one_pow
  rw [hl] at h2
  norm_num at h2

def exNames : Dict String := [("x", "y"), ("y", "x")]

example : ∀ ax ∈ keys exNames, ∃ m, get? exWave.shape ax = some m ∧ 1 ≤ m ∧
    Recovers (ND.dft (forward exRoot)) (ND.dft (backward exRoot)) m m m := by
  intro ax hax
  have : ax = "x" ∨ ax = "y" := by simpa [exNames, keys] using hax
  refine ⟨2, ?_, by norm_num, C82_dft_inverse exRoot 2 (by norm_num) exRoot_primitive⟩
  rcases this with rfl | rfl <;> rfl

example : exWave.WF ∧ Dict.WF exNames ∧ keys exNames ⊆ exWave.axes ∧ (exWave.axes.map (renamed exNames)).Nodup := by decide

example : (fftnLike (ND.fftnPlan (ND.dft (forward exRoot))) exWave exNames none).map (fun r => (r.axes, r.nd.shape, r.nd.toList)) =
    .ok (["y", "t", "x"], [2, 1, 2], [15, -9, -3, 1]) := by decide +kernel

example : ((fftnLike (ND.fftnPlan (ND.dft (forward exRoot))) exWave exNames none).bind (fun r =>
    fftnLike (ND.fftnPlan (ND.dft (backward exRoot))) r exNames none)).map (fun r => (r.axes, r.nd.shape, r.nd.toList)) =
    .ok (["x", "t", "y"], [2, 1, 2], [1, 5, 2, 7]) := by decide +kernel

example : (fftLike (ND.dft (forward exRoot)) exWave ("x", "y") none).map (fun r => r.axes) = .error .valueError := by decide +kernel

end SA
end NA
