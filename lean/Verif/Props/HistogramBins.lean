import Verif.Props.Histograms
import Mathlib.Data.Rat.Floor

/-!
# C58: histograms with a given number of bins
-/

namespace NA
open Dict
open SA (FitsIn InRange)
open Comp (SlabOf)

variable {K : Type} [Field K] [LinearOrder K] [IsStrictOrderedRing K]

/-- The array has only axes which are not summed over. -/
def IsBound (S : Shape) (A : List String) (a : SA K) : Prop :=
  a.WF ∧ ∀ x n, get? a.shape x = some n → x ∉ A ∧ ∃ k, get? S x = some k ∧ (n = k ∨ n = 1)

/-- The arrays `lo` and `hi` are a lower and an upper bound of a histogram. -/
structure Bounds (S : Shape) (A : List String) (lo hi : SA K) : Prop where
  lower : IsBound S A lo
  upper : IsBound S A hi
  le : ∀ e, OutsideRange S A e → lo.atB e ≤ hi.atB e

variable {S : Shape} {A : List String}

/-! ### Helpers -/

theorem linspace_dim (hS : WF S) {lo hi : SA K} (hb : Bounds S A lo hi) {ax : String} (hax : ax ∈ keys S → ax ∈ A) (n : Nat) :
    ∃ r, SA.linspace lo hi ax ((n + 1 : Nat) : Int) true false = .ok r ∧ GoodDims S A [⟨r, ax, n⟩] ∧
      ∀ e, OutsideRange S A e → ∀ k ≤ n, r.atB (Function.update e ax k) = lo.atB e + (k : K) * ((hi.atB e - lo.atB e) / (n : K)) := by
  have hlo : FitsIn lo.shape (orthogonal S A) := fun x m hm => by
    obtain ⟨h1, k, h2, h3⟩ := hb.lower.2 x m hm
    exact ⟨k, by rw [get?_orthogonal, if_pos h1, h2], h3⟩
  have hhi : FitsIn hi.shape (orthogonal S A) := fun x m hm => by
    obtain ⟨h1, k, h2, h3⟩ := hb.upper.2 x m hm
    exact ⟨k, by rw [get?_orthogonal, if_pos h1, h2], h3⟩
  obtain ⟨T, t1, t2⟩ := broadcast_of_fits (SA.wf_shape hb.lower.1) (SA.wf_shape hb.upper.1) hlo hhi
  have haxT : ax ∉ keys T := by
    intro hk
    obtain ⟨m, hm⟩ := exists_get?_of_mem hk
    obtain ⟨k, hk', _⟩ := t2 ax m hm
    have := mem_orthogonal.1 (mem_keys_of_get? hk')
    exact this.2 (hax this.1)
  obtain ⟨r, r1, r2, r3, r4⟩ := C33_linspace lo hi hb.lower.1 hb.upper.1 T t1 ax haxT (n + 1) true false (by simp)
  have hw : ∀ s ∈ [lo.shape, hi.shape], WF s := by
    intro s hs
    simp only [List.mem_cons, List.not_mem_nil, or_false] at hs
    rcases hs with rfl | rfl
    · exact SA.wf_shape hb.lower.1
    · exact SA.wf_shape hb.upper.1
  have hfit : ∀ c : SA K, c.shape ∈ [lo.shape, hi.shape] → FitsIn c.shape r.shape := by
    intro c hc x m hm
    obtain ⟨k, hk, h⟩ := SA.fitsIn_of_broadcastShapes hw t1 hc x m hm
    refine ⟨k, ?_, h⟩
    rw [r3, if_neg (fun hx : x = ax => haxT (hx ▸ mem_keys_of_get? hk)), hk]
  have hnolo : ax ∉ lo.axes := by
    intro hk
    rw [← SA.keys_shape hb.lower.1] at hk
    obtain ⟨m, hm⟩ := exists_get?_of_mem hk
    obtain ⟨h1, k, h2, _⟩ := hb.lower.2 ax m hm
    exact h1 (hax (mem_keys_of_get? h2))
  have hnohi : ax ∉ hi.axes := by
    intro hk
    rw [← SA.keys_shape hb.upper.1] at hk
    obtain ⟨m, hm⟩ := exists_get?_of_mem hk
    obtain ⟨h1, k, h2, _⟩ := hb.upper.2 ax m hm
    exact h1 (hax (mem_keys_of_get? h2))
  have hval : ∀ e, OutsideRange S A e → ∀ k ≤ n,
      r.atB (Function.update e ax k) = lo.atB e + (k : K) * ((hi.atB e - lo.atB e) / (n : K)) := by
    intro e he k hk
    have hin : InRange r.shape (fun x => if get? r.shape x = some 1 then 0 else Function.update e ax k x) := by
      intro x m hm
      show (if get? r.shape x = some 1 then 0 else Function.update e ax k x) < m
      by_cases h1 : m = 1
      · subst h1; rw [if_pos hm]; omega
      · rw [if_neg (by rw [hm]; simpa using h1)]
        rw [r3] at hm
        by_cases hx : x = ax
        · subst hx
          rw [if_pos rfl] at hm
          injection hm with hm
          simp only [Function.update_self]
          omega
        · rw [if_neg hx] at hm
          rw [Function.update_of_ne hx]
          obtain ⟨j, hj, hmj⟩ := t2 x m hm
          have := outsideRange_iff.1 he x j hj
          omega
    have h1 : r.atB (Function.update e ax k) =
        r.at' (fun x => if get? r.shape x = some 1 then 0 else Function.update e ax k x) := rfl
    rw [h1, r4 _ hin, atB_clip hb.lower.1 (hfit lo (by simp)), atB_clip hb.upper.1 (hfit hi (by simp))]
    have hl : lo.atB (Function.update e ax k) = lo.atB e := SA.atB_congr fun x hx =>
      Function.update_of_ne (fun h : x = ax => hnolo (h ▸ hx)) _ _
    have hh : hi.atB (Function.update e ax k) = hi.atB e := SA.atB_congr fun x hx =>
      Function.update_of_ne (fun h : x = ax => hnohi (h ▸ hx)) _ _
    rw [hl, hh]
    have hk' : (if get? r.shape ax = some 1 then 0 else Function.update e ax k ax) = k := by
      rw [r3, if_pos rfl, Function.update_self]
      by_cases h0 : n = 0
      · subst h0
        rw [if_pos rfl]; omega
      · rw [if_neg (by simpa using h0)]
    simp only [hk', Bool.false_eq_true, if_false, add_zero]
    unfold spacing cells
    simp
  refine ⟨r, r1, ⟨by simp, ?_, ?_, ?_, ?_, ?_⟩, hval⟩
  · intro D hD; rw [List.mem_singleton] at hD; subst hD; exact hax
  · intro D hD; rw [List.mem_singleton] at hD; subst hD; exact r2
  · intro D hD; rw [List.mem_singleton] at hD; subst hD
    show get? r.shape ax = _
    rw [r3, if_pos rfl]
  · intro D hD x m hx hm
    rw [List.mem_singleton] at hD; subst hD
    have hm' : get? r.shape x = some m := hm
    rw [r3, if_neg hx] at hm'
    obtain ⟨k, hk, h⟩ := t2 x m hm'
    rw [get?_orthogonal] at hk
    split at hk
    · next hA => exact ⟨hA, k, hk, h⟩
    · cases hk
  · intro D hD e he k hk
    rw [List.mem_singleton] at hD; subst hD
    show r.atB (Function.update e ax k) ≤ r.atB (Function.update e ax (k + 1))
    have hk' : k < n := hk
    rw [hval e he k (by omega), hval e he (k + 1) (by omega)]
    have h0 : (0 : K) ≤ (hi.atB e - lo.atB e) / (n : K) :=
      div_nonneg (sub_nonneg.2 (hb.le e he)) (Nat.cast_nonneg n)
    push_cast
    nlinarith

theorem GoodDims.single {dims : List (Dim K)} (h : ∀ D ∈ dims, GoodDims S A [D]) (hn : (dims.map Dim.axis).Nodup) :
    GoodDims S A dims :=
  ⟨hn, fun D hD => (h D hD).new D (by simp), fun D hD => (h D hD).wf D (by simp), fun D hD => (h D hD).size D (by simp),
    fun D hD => (h D hD).other D (by simp), fun D hD => (h D hD).order D (by simp)⟩

/-- the result with edges which have been computed -/
theorem histogramdd_counts {samples : List (SA K)} {weights : Option (SA K)} {axis : Option (List String)} {bins bins' : Bins K}
    {min max min' max' : Option (List (SA K))} {density : Bool} {garbage : List Nat → K} {p : SA (List K × K)} {ss E : List (SA K)}
    (h1 : pairUp samples weights = .ok p) (h2 : samples.mapM (fun s => s.broadcastTo p.shape) = .ok ss)
    (h3 : edgesOf ss (axis.getD p.shape.keys) bins min max = .ok E)
    (h4 : edgesOf ss (axis.getD p.shape.keys) bins' min' max' = .ok E) :
    histogramdd samples bins axis min max density weights garbage =
      histogramdd samples bins' axis min' max' density weights garbage := by
  unfold histogramdd
  simp only [bind, Except.bind, h1, h2, h3, h4]

/-- The facts about a histogram of one array with `n` equal bins from `lo` to `hi`. -/
theorem histogram_single {a : SA K} {weights : Option (SA K)} {axis : Option (List String)}
    (hs : GoodSamples [a] weights axis S A) {ax : String} (hax : ax ∈ keys S → ax ∈ A) {lo hi : SA K} (hb : Bounds S A lo hi)
    (n : Nat) (min max : Option (SA K)) (garbage : List Nat → K)
    (hbounds : ∀ ss p, pairUp [a] weights = .ok p → [a].mapM (fun s => s.broadcastTo p.shape) = .ok ss →
      boundsOf listMin ss (axis.getD p.shape.keys) (min.map fun m => [m]) = .ok [lo] ∧
      boundsOf listMax ss (axis.getD p.shape.keys) (max.map fun m => [m]) = .ok [hi]) :
    ∃ hist edges, histogram a (.counts [(ax, ((n + 1 : Nat) : Int))]) axis min max false weights garbage = .ok (hist, edges) ∧
      hist.WF ∧ edges.WF ∧ get? edges.shape ax = some (n + 1) ∧
      (∀ e, OutsideRange S A e → ∀ k ≤ n,
        edges.atB (Function.update e ax k) = lo.atB e + (k : K) * ((hi.atB e - lo.atB e) / (n : K))) ∧
      (∀ x, get? hist.shape x = if x = ax then some n else if x ∈ A then none else get? S x) ∧
      (∀ e, InRange hist.shape e → ∃ l, SlabOf S A e l ∧ hist.at' e =
        ((l.filter (fun e' => decide (Dim.InBin ⟨edges, ax, n⟩ e (a.atB e')))).map (weightsOf weights).atB).sum) ∧
      (0 < n → ∀ e, OutsideRange S A e → ∃ l, SlabOf S A e l ∧
        ((List.range n).map (fun k => hist.at' (Function.update e ax k))).sum =
          ((l.filter (fun e' => decide (lo.atB e ≤ a.atB e' ∧ a.atB e' ≤ hi.atB e))).map (weightsOf weights).atB).sum) := by
  have hS : WF S := (C01_broadcast_shapes_ok _ (by
    intro s hm
    rw [List.mem_append, List.mem_singleton] at hm
    rcases hm with hm | rfl
    · obtain ⟨a, ha, rfl⟩ := List.mem_map.1 hm
      exact SA.wf_shape (hs.wf a ha)
    · exact SA.wf_shape hs.wfw) S hs.shape).1
  obtain ⟨r, r1, r2, r3⟩ := linspace_dim hS hb hax n
  obtain ⟨p, p1, p2, p3, p4⟩ := pairUp_ok [a] hs.wf weights hs.wfw hs.shape
  obtain ⟨ss, s1, s2, _⟩ := histBroadcast hs (SA.wf_shape p2) p3
  obtain ⟨hist, c1, c2, c3, c4⟩ := C58_counts [a] weights axis S A hs [⟨r, ax, n⟩] r2 rfl none none garbage
  obtain ⟨b1, b2⟩ := hbounds ss p p1 s1
  have hE : edgesOf ss (axis.getD p.shape.keys) (.counts [(ax, ((n + 1 : Nat) : Int))]) (min.map fun m => [m])
      (max.map fun m => [m]) = .ok [r] := by
    simp only [edgesOf, bind, Except.bind, b1, b2]
    rw [if_neg (by rw [s2]; simp)]
    simp only [List.zip_cons_cons, List.zip_nil_left]
    rw [List.mapM_cons]
    simp only [bind, Except.bind]
    rw [r1]
    rfl
  have hrun : histogramdd [a] (.counts [(ax, ((n + 1 : Nat) : Int))]) axis (min.map fun m => [m]) (max.map fun m => [m]) false
      weights garbage = .ok (hist, [r]) := by
    rw [histogramdd_counts p1 s1 hE (bins' := .edges [r]) (min' := none) (max' := none) rfl]
    exact c1
  refine ⟨hist, r, ?_, c2, r2.wf ⟨r, ax, n⟩ (by simp), r2.size ⟨r, ax, n⟩ (by simp), r3, fun x => ?_, fun e he => ?_,
    fun hn e he => ?_⟩
  · unfold histogram
    simp only [bind, Except.bind]
    rw [hrun]
  · cases hx : (if x = ax then some n else if x ∈ A then none else get? S x) with
    | none =>
      rw [← Option.not_isSome_iff_eq_none, Option.isSome_iff_exists]
      rintro ⟨m, hm⟩
      rcases (c3 x m).1 hm with ⟨D, hD, rfl, rfl⟩ | ⟨h1, h2, h3⟩
      · rw [List.mem_singleton] at hD
        subst hD
        simp at hx
      · simp only [List.map_cons, List.map_nil, List.mem_singleton] at h1
        rw [if_neg h1, if_neg h2, h3] at hx
        cases hx
    | some m =>
      rw [c3]
      by_cases h : x = ax
      · rw [if_pos h] at hx
        injection hx with hx
        exact .inl ⟨_, List.mem_singleton.2 rfl, h.symm, hx⟩
      · rw [if_neg h] at hx
        by_cases hA : x ∈ A
        · rw [if_pos hA] at hx; cases hx
        · rw [if_neg hA] at hx
          exact .inr ⟨by simpa using h, hA, hx⟩
  · obtain ⟨l, l1, l2⟩ := c4 e he
    refine ⟨l, l1, l2.trans ?_⟩
    congr 2
    apply List.filter_congr
    intro e' _
    rw [decide_eq_decide]
    unfold Sampled
    simp
  · have hnum : get? hist.shape ax = some n := (c3 _ _).2 (.inl ⟨_, List.mem_singleton.2 rfl, rfl, rfl⟩)
    have hsl : SlabOf S A e (slabEnvs A p.size1 e) := slabOf_slabEnvs p2 p3 hs.nodup hs.sub e
    refine ⟨_, hsl, ?_⟩
    have hL : SlabOf hist.shape ([(⟨r, ax, n⟩ : Dim K)].map Dim.axis) e ((List.range n).map (fun k => Function.update e ax k)) := by
      refine ⟨List.Nodup.map ?_ List.nodup_range, fun e' => ?_⟩
      · intro i j hij
        have := congrFun hij ax
        simpa using this
      · simp only [List.mem_map, List.mem_range, List.map_cons, List.map_nil, List.mem_singleton, forall_eq]
        constructor
        · rintro ⟨k, hk, rfl⟩
          exact ⟨⟨n, hnum, by simpa using hk⟩, fun x hx => Function.update_of_ne hx _ _⟩
        · rintro ⟨⟨m, hm, hlt⟩, h⟩
          rw [hnum] at hm
          injection hm with hm
          refine ⟨e' ax, by omega, ?_⟩
          funext x
          by_cases hx : x = ax
          · subst hx; simp
          · rw [Function.update_of_ne hx, h x hx]
    have ht := C58_total [a] weights axis S A hs [⟨r, ax, n⟩] r2 rfl (by simpa using hn) none none garbage hist [r] c1 e he _ _ hL hsl
    rw [List.map_map] at ht
    refine ht.trans ?_
    congr 2
    apply List.filter_congr
    intro e' _
    rw [decide_eq_decide]
    have h0 : Dim.edge ⟨r, ax, n⟩ e 0 = lo.atB e := by
      show r.atB (Function.update e ax 0) = _
      rw [r3 e he 0 (by omega)]; simp
    have h1 : Dim.edge ⟨r, ax, n⟩ e n = hi.atB e := by
      show r.atB (Function.update e ax n) = _
      rw [r3 e he n (le_refl n)]
      have : (n : K) ≠ 0 := by
        have : (0 : K) < n := Nat.cast_pos.2 hn
        exact ne_of_gt this
      field_simp
      ring
    unfold Covered
    simp [Dim.Inside, h0, h1]

/-! ### The properties -/

/-- **C58** (partial). `na.histogram(a, bins={ax: n}, axis, min, max)` has `n` equidistant edges from `min` to `max`, thus
`n - 1` bins (and not `n` bins, see `C58_number_of_bins_refuted`); each element is the sum of the weights (without weights the
number) of the samples in the bin, and if there is a bin then the sum over the bins is the sum of the weights (without weights
the number) of the samples in `[min, max]`. -/
theorem C58_histogram_partial (a : SA K) (weights : Option (SA K)) (axis : Option (List String)) (S : Shape) (A : List String)
    (hs : GoodSamples [a] weights axis S A) (ax : String) (hax : ax ∈ keys S → ax ∈ A) (lo hi : SA K) (hb : Bounds S A lo hi)
    (n : Nat) (garbage : List Nat → K) :
    ∃ hist edges, histogram a (.counts [(ax, ((n + 1 : Nat) : Int))]) axis (some lo) (some hi) false weights garbage =
        .ok (hist, edges) ∧ hist.WF ∧ edges.WF ∧ get? edges.shape ax = some (n + 1) ∧
      (∀ e, OutsideRange S A e → ∀ k ≤ n,
        edges.atB (Function.update e ax k) = lo.atB e + (k : K) * ((hi.atB e - lo.atB e) / (n : K))) ∧
      (∀ x, get? hist.shape x = if x = ax then some n else if x ∈ A then none else get? S x) ∧
      (∀ e, InRange hist.shape e → ∃ l, SlabOf S A e l ∧ hist.at' e =
        ((l.filter (fun e' => decide (Dim.InBin ⟨edges, ax, n⟩ e (a.atB e')))).map (weightsOf weights).atB).sum) ∧
      (0 < n → ∀ e, OutsideRange S A e → ∃ l, SlabOf S A e l ∧
        ((List.range n).map (fun k => hist.at' (Function.update e ax k))).sum =
          ((l.filter (fun e' => decide (lo.atB e ≤ a.atB e' ∧ a.atB e' ≤ hi.atB e))).map (weightsOf weights).atB).sum) :=
  histogram_single hs hax hb n (some lo) (some hi) garbage fun _ _ _ _ => ⟨rfl, rfl⟩

/-! ### The smallest and the largest sample -/

theorem foldl_min_le (l : List K) : ∀ x, l.foldl min x ≤ x ∧ ∀ y ∈ l, l.foldl min x ≤ y := by
  induction l with
  | nil => intro x; exact ⟨le_refl x, by simp⟩
  | cons z l ih =>
    intro x
    obtain ⟨h1, h2⟩ := ih (min x z)
    refine ⟨h1.trans (min_le_left x z), fun y hy => ?_⟩
    rcases List.mem_cons.1 hy with rfl | hy
    · exact h1.trans (min_le_right x y)
    · exact h2 y hy

theorem le_foldl_max (l : List K) : ∀ x, x ≤ l.foldl max x ∧ ∀ y ∈ l, y ≤ l.foldl max x := by
  induction l with
  | nil => intro x; exact ⟨le_refl x, by simp⟩
  | cons z l ih =>
    intro x
    obtain ⟨h1, h2⟩ := ih (max x z)
    refine ⟨(le_max_left x z).trans h1, fun y hy => ?_⟩
    rcases List.mem_cons.1 hy with rfl | hy
    · exact (le_max_right x y).trans h1
    · exact h2 y hy

theorem foldl_min_mem (l : List K) : ∀ x, l.foldl min x ∈ x :: l := by
  induction l with
  | nil => intro x; simp
  | cons z l ih =>
    intro x
    have := ih (min x z)
    rcases List.mem_cons.1 this with h | h
    · rcases min_choice x z with h' | h'
      · rw [List.foldl_cons, h, h']; simp
      · rw [List.foldl_cons, h, h']; simp
    · rw [List.foldl_cons]
      exact List.mem_cons_of_mem _ (List.mem_cons_of_mem _ h)

theorem foldl_max_mem (l : List K) : ∀ x, l.foldl max x ∈ x :: l := by
  induction l with
  | nil => intro x; simp
  | cons z l ih =>
    intro x
    have := ih (max x z)
    rcases List.mem_cons.1 this with h | h
    · rcases max_choice x z with h' | h'
      · rw [List.foldl_cons, h, h']; simp
      · rw [List.foldl_cons, h, h']; simp
    · rw [List.foldl_cons]
      exact List.mem_cons_of_mem _ (List.mem_cons_of_mem _ h)

theorem listMin_spec {l : List K} (h : l ≠ []) : listMin l ∈ l ∧ ∀ y ∈ l, listMin l ≤ y := by
  cases l with
  | nil => exact absurd rfl h
  | cons x l =>
    refine ⟨foldl_min_mem l x, fun y hy => ?_⟩
    rcases List.mem_cons.1 hy with rfl | hy
    · exact (foldl_min_le l y).1
    · exact (foldl_min_le l x).2 y hy

theorem listMax_spec {l : List K} (h : l ≠ []) : listMax l ∈ l ∧ ∀ y ∈ l, y ≤ listMax l := by
  cases l with
  | nil => exact absurd rfl h
  | cons x l =>
    refine ⟨foldl_max_mem l x, fun y hy => ?_⟩
    rcases List.mem_cons.1 hy with rfl | hy
    · exact (le_foldl_max l y).1
    · exact (le_foldl_max l x).2 y hy

/-- `lo` and `hi` are the smallest and the largest samples. -/
def Extremes (S : Shape) (A : List String) (a lo hi : SA K) : Prop :=
  ∀ e, OutsideRange S A e → ∀ l, SlabOf S A e l →
    (∃ e' ∈ l, a.atB e' = lo.atB e) ∧ (∃ e' ∈ l, a.atB e' = hi.atB e) ∧ ∀ e' ∈ l, lo.atB e ≤ a.atB e' ∧ a.atB e' ≤ hi.atB e

theorem default_bounds (hA : A.Nodup) (hsub : A ⊆ keys S) (hne : ∀ x ∈ A, get? S x ≠ some 0) {A' : List String} (hA' : A'.Nodup)
    (hAA : ∀ x, x ∈ A ↔ x ∈ A') {a b : SA K} (hb : b.WF) (hS : ∀ x, get? b.shape x = get? S x) (hab : ∀ e, b.at' e = a.atB e) :
    ∃ lo hi, b.reduce true listMin (some A') false none none = .ok lo ∧ b.reduce true listMax (some A') false none none = .ok hi ∧
      Bounds S A lo hi ∧ Extremes S A a lo hi := by
  have hsub' : A' ⊆ b.axes := by
    intro x hx
    obtain ⟨n, hn⟩ := exists_get?_of_mem (hsub ((hAA x).2 hx))
    rw [← SA.keys_shape hb]
    exact mem_keys_of_get? ((hS x).trans hn)
  have hempty : ¬ (true = true ∧ SA.EmptySlab b A') := by
    rintro ⟨_, ⟨x, hx, h0⟩, _⟩
    rw [hS] at h0
    exact hne x ((hAA x).2 hx) h0
  obtain ⟨lo, l1, l2, _, l4, l5⟩ := SA.C17_reduce b hb none (by intro w hw; cases hw) A' hA' hsub' true listMin false hempty
  obtain ⟨hi, h1, h2, _, h4, h5⟩ := SA.C17_reduce b hb none (by intro w hw; cases hw) A' hA' hsub' true listMax false hempty
  have hbd : ∀ r : SA K, r.WF → (∀ ax, get? r.shape ax = if ax ∈ A' then (if false then some 1 else none) else get? b.shape ax) →
      IsBound S A r := by
    intro r hr hs
    refine ⟨hr, fun x n hx => ?_⟩
    rw [hs] at hx
    by_cases h : x ∈ A'
    · simp [h] at hx
    · rw [if_neg h, hS] at hx
      exact ⟨fun h' => h ((hAA x).1 h'), n, hx, .inl rfl⟩
  have hat : ∀ r : SA K, r.WF → (∀ ax, get? r.shape ax = if ax ∈ A' then (if false then some 1 else none) else get? b.shape ax) →
      ∀ e, OutsideRange S A e → r.atB e = r.at' e := by
    intro r hr hs e he
    refine SA.atB_eq_at' hr fun x n hx => ?_
    obtain ⟨q1, k, q2, _⟩ := (hbd r hr hs).2 x n hx
    rw [hs, if_neg (fun h => q1 ((hAA x).2 h)), hS] at hx
    exact he x n q1 hx
  have key : Extremes S A a lo hi := by
    intro e he l hl
    have hpos : l ≠ [] := by
      intro h
      have : (fun x => if x ∈ A then 0 else e x) ∈ l := (hl.2 _).2 ⟨fun x hx => by
        obtain ⟨n, hn⟩ := exists_get?_of_mem (hsub hx)
        refine ⟨n, hn, ?_⟩
        rw [if_pos hx]
        exact Nat.pos_of_ne_zero fun h0 => hne x hx (h0 ▸ hn), fun x hx => if_neg hx⟩
      rw [h] at this
      cases this
    have hperm : ∀ l', SA.IsSlab b A' e l' → l.Perm l' := by
      intro l' hl'
      refine (List.perm_ext_iff_of_nodup hl.1 hl'.1).2 fun e' => ?_
      rw [hl.2, hl'.2]
      simp only [hAA, hS]
    have hmem : ∀ l', SA.IsSlab b A' e l' → (∀ y, y ∈ ((l'.filter (SA.selected none)).map b.at') ↔ ∃ e' ∈ l, a.atB e' = y) := by
      intro l' hl' y
      have hf : l'.filter (SA.selected none) = l' := List.filter_eq_self.2 fun _ _ => rfl
      rw [hf]
      constructor
      · intro hy
        obtain ⟨e', h1, rfl⟩ := List.mem_map.1 hy
        exact ⟨e', (hperm l' hl').mem_iff.2 h1, (hab e').symm⟩
      · rintro ⟨e', h1, rfl⟩
        exact List.mem_map.2 ⟨e', (hperm l' hl').mem_iff.1 h1, hab e'⟩
    have hnil : ∀ l', SA.IsSlab b A' e l' → (l'.filter (SA.selected none)).map b.at' ≠ [] := by
      intro l' hl' h0
      obtain ⟨e', he'⟩ := List.exists_mem_of_ne_nil l hpos
      have := (hmem l' hl' (a.atB e')).2 ⟨e', he', rfl⟩
      rw [h0] at this
      cases this
    obtain ⟨l', m1, m2⟩ := l5 e
    obtain ⟨l'', n1, n2⟩ := h5 e
    rw [hat lo l2 l4 e he, hat hi h2 h4 e he, m2, n2]
    have p1 := listMin_spec (hnil l' m1)
    have p2 := listMax_spec (hnil l'' n1)
    exact ⟨(hmem l' m1 _).1 p1.1, (hmem l'' n1 _).1 p2.1, fun e' he' => ⟨p1.2 _ ((hmem l' m1 _).2 ⟨e', he', rfl⟩),
      p2.2 _ ((hmem l'' n1 _).2 ⟨e', he', rfl⟩)⟩⟩
  refine ⟨lo, hi, l1, h1, ⟨hbd lo l2 l4, hbd hi h2 h4, fun e he => ?_⟩, key⟩
  obtain ⟨_, ⟨e', q1, _⟩, q3⟩ := key e he _ (by
    refine ⟨(SA.isSlab_slabEnvs hb (A := A') (B := A') hA' hsub' (fun _ => Iff.rfl) e).1, fun e' => ?_⟩
    rw [(SA.isSlab_slabEnvs hb (A := A') (B := A') hA' hsub' (fun _ => Iff.rfl) e).2]
    simp only [hAA, hS])
  exact (q3 e' q1).1.trans (q3 e' q1).2

theorem axes_of_samples {samples : List (SA K)} {weights : Option (SA K)} {axis : Option (List String)}
    (hs : GoodSamples samples weights axis S A) {T : Shape} (hT : WF T) (hTS : ∀ ax, get? T ax = get? S ax) :
    (axis.getD T.keys).Nodup ∧ ∀ x, x ∈ A ↔ x ∈ axis.getD T.keys := by
  have hk : ∀ ax, ax ∈ keys T ↔ ax ∈ keys S := by
    intro ax
    rw [← not_iff_not, ← get?_eq_none, ← get?_eq_none, hTS]
  rcases hs.axes with rfl | ⟨rfl, hall⟩
  · exact ⟨hs.nodup, fun x => Iff.rfl⟩
  · exact ⟨hT, fun x => ⟨fun h => (hk x).2 (hs.sub h), fun h => hall x ((hk x).1 h)⟩⟩

/-- **C58** (partial). Without `min` and `max`, the edges of `na.histogram(a, bins={ax: n}, axis)` range from the smallest to the
largest sample (along the summed axes), no sample is lost: if there is a bin then the sum over the bins is the sum of all the
weights (without weights the number of samples). -/
theorem C58_default_partial (a : SA K) (weights : Option (SA K)) (axis : Option (List String)) (S : Shape) (A : List String)
    (hs : GoodSamples [a] weights axis S A) (hne : ∀ x ∈ A, get? S x ≠ some 0) (ax : String) (hax : ax ∈ keys S → ax ∈ A)
    (n : Nat) (garbage : List Nat → K) :
    ∃ hist edges lo hi, histogram a (.counts [(ax, ((n + 1 : Nat) : Int))]) axis none none false weights garbage =
        .ok (hist, edges) ∧ hist.WF ∧ edges.WF ∧ get? edges.shape ax = some (n + 1) ∧ Extremes S A a lo hi ∧
      (∀ e, OutsideRange S A e → ∀ k ≤ n,
        edges.atB (Function.update e ax k) = lo.atB e + (k : K) * ((hi.atB e - lo.atB e) / (n : K))) ∧
      (∀ x, get? hist.shape x = if x = ax then some n else if x ∈ A then none else get? S x) ∧
      (∀ e, InRange hist.shape e → ∃ l, SlabOf S A e l ∧ hist.at' e =
        ((l.filter (fun e' => decide (Dim.InBin ⟨edges, ax, n⟩ e (a.atB e')))).map (weightsOf weights).atB).sum) ∧
      (0 < n → ∀ e, OutsideRange S A e → ∃ l, SlabOf S A e l ∧
        ((List.range n).map (fun k => hist.at' (Function.update e ax k))).sum = (l.map (weightsOf weights).atB).sum) := by
  obtain ⟨p, p1, p2, p3, p4⟩ := pairUp_ok [a] hs.wf weights hs.wfw hs.shape
  obtain ⟨ss, s1, s2, s3⟩ := histBroadcast hs (SA.wf_shape p2) p3
  obtain ⟨q1, q2⟩ := axes_of_samples hs (SA.wf_shape p2) p3
  cases s3 with
  | cons hb hnil =>
  cases hnil with
  | nil =>
  rename_i b
  obtain ⟨b1, b2, b3⟩ := hb
  obtain ⟨lo, hi, h1, h2, h3, h4⟩ := default_bounds hs.nodup hs.sub hne q1 q2 b1 (fun x => by rw [b2, p3]) b3
  obtain ⟨hist, edges, c1, c2, c3, c4, c5, c6, c7, c8⟩ := histogram_single hs hax h3 n none none garbage (by
    intro ss' p' hp' hss'
    rw [p1] at hp'
    injection hp' with hp'
    subst hp'
    rw [s1] at hss'
    injection hss' with hss'
    subst hss'
    constructor
    · show [b].mapM _ = _
      rw [List.mapM_cons]
      simp only [bind, Except.bind, h1]
      rfl
    · show [b].mapM _ = _
      rw [List.mapM_cons]
      simp only [bind, Except.bind, h2]
      rfl)
  refine ⟨hist, edges, lo, hi, c1, c2, c3, c4, h4, c5, c6, c7, fun hn e he => ?_⟩
  obtain ⟨l, l1, l2⟩ := c8 hn e he
  refine ⟨l, l1, l2.trans ?_⟩
  rw [List.filter_eq_self.2]
  intro e' he'
  simpa using (h4 e he l l1).2.2 e' he'

/-! ### Two dimensions -/

/-- `na.histogram2d` is `na.histogramdd` with the edges which have been computed. -/
theorem histogram2d_eq {x y : SA K} {weights : Option (SA K)} {axis : Option (List String)} {bins : Bins K}
    {min max : Option (SA K × SA K)} {density : Bool} {garbage : List Nat → K} {p : SA (List K × K)} {x' y' ex ey : SA K}
    (h1 : pairUp [x, y] weights = .ok p) (h2 : x.broadcastTo p.shape = .ok x') (h3 : y.broadcastTo p.shape = .ok y')
    (h4 : edges2d x' y' (axis.getD p.shape.keys) (orthogonal p.shape (axis.getD p.shape.keys)) bins min max = .ok (ex, ey))
    {hist : SA K} {E : List (SA K)} (h5 : histogramdd [x, y] (.edges [ex, ey]) axis none none density weights garbage = .ok (hist, E)) :
    histogram2d x y bins axis min max density weights garbage = .ok (hist, ex, ey) := by
  have hm : [x, y].mapM (fun s => s.broadcastTo p.shape) = .ok [x', y'] := by
    rw [List.mapM_cons]
    simp only [bind, Except.bind, h2]
    rw [List.mapM_cons]
    simp only [bind, Except.bind, h3]
    rfl
  unfold histogramdd at h5
  simp only [bind, Except.bind, h1, hm, edgesOf] at h5
  have hl : ([x', y'] : List (SA K)).length = 2 := rfl
  rw [hl] at h5
  unfold histogram2d
  simp only [bind, Except.bind, h1, h2, h3, h4]
  cases hh : histLoop p (axis.getD p.shape.keys) [ex, ey] 2 density garbage with
  | error err => rw [hh] at h5; cases h5
  | ok h =>
    rw [hh] at h5
    injection h5 with h5
    injection h5 with h5
    subst h5
    rfl

theorem slab_grid {T : Shape} {ax ay : String} (hxy : ax ≠ ay) {m n : Nat} (hx : get? T ax = some m) (hy : get? T ay = some n)
    (e : String → Nat) :
    SlabOf T [ax, ay] e
      ((List.range m).flatMap (fun i => (List.range n).map (fun j => Function.update (Function.update e ax i) ay j))) := by
  refine ⟨?_, fun e' => ?_⟩
  · rw [List.nodup_flatMap]
    refine ⟨fun i _ => List.Nodup.map ?_ List.nodup_range, ?_⟩
    · intro j k hjk
      have := congrFun hjk ay
      simpa using this
    · refine List.Nodup.pairwise_of_forall_ne List.nodup_range fun i _ k _ hik => ?_
      show List.Disjoint _ _
      intro e' h1 h2
      obtain ⟨j, _, rfl⟩ := List.mem_map.1 h1
      obtain ⟨j', _, h⟩ := List.mem_map.1 h2
      have := congrFun h ax
      rw [Function.update_of_ne hxy, Function.update_of_ne hxy] at this
      simp only [Function.update_self] at this
      exact hik this.symm
  · simp only [List.mem_flatMap, List.mem_map, List.mem_range]
    constructor
    · rintro ⟨i, hi, j, hj, rfl⟩
      refine ⟨fun x hx' => ?_, fun x hx' => ?_⟩
      · simp only [List.mem_cons, List.not_mem_nil, or_false] at hx'
        rcases hx' with rfl | rfl
        · exact ⟨m, hx, by rw [Function.update_of_ne hxy]; simpa using hi⟩
        · exact ⟨n, hy, by simpa using hj⟩
      · simp only [List.mem_cons, List.not_mem_nil, or_false, not_or] at hx'
        rw [Function.update_of_ne hx'.2, Function.update_of_ne hx'.1]
    · rintro ⟨h1, h2⟩
      obtain ⟨k, hk, hlt⟩ := h1 ax (by simp)
      obtain ⟨k', hk', hlt'⟩ := h1 ay (by simp)
      rw [hx] at hk
      rw [hy] at hk'
      injection hk with hk
      injection hk' with hk'
      refine ⟨e' ax, by omega, e' ay, by omega, ?_⟩
      funext x
      by_cases hxx : x = ay
      · subst hxx; simp
      · rw [Function.update_of_ne hxx]
        by_cases hxa : x = ax
        · subst hxa; simp
        · rw [Function.update_of_ne hxa, h2 x (by simp [hxx, hxa])]

/-- **C58** `na.histogram2d(x, y, bins={ax: m, ay: n}, axis, min, max)` has `m` by `n` bins with equidistant edges from `min` to
`max`; each element is the sum of the weights (without weights the number) of the samples in the bin, and if `m` and `n` are not
zero then the sum over all the bins is the sum of the weights of the samples in the rectangle from `min` to `max`. -/
theorem C58_histogram2d (x y : SA K) (weights : Option (SA K)) (axis : Option (List String)) (S : Shape) (A : List String)
    (hs : GoodSamples [x, y] weights axis S A) (ax ay : String) (hxy : ax ≠ ay) (hax : ax ∈ keys S → ax ∈ A)
    (hay : ay ∈ keys S → ay ∈ A) (lo hi lo' hi' : SA K) (hb : Bounds S A lo hi) (hb' : Bounds S A lo' hi')
    (m n : Nat) (garbage : List Nat → K) :
    ∃ hist ex ey, histogram2d x y (.counts [(ax, (m : Int)), (ay, (n : Int))]) axis (some (lo, lo')) (some (hi, hi')) false weights
        garbage = .ok (hist, ex, ey) ∧ hist.WF ∧ ex.WF ∧ ey.WF ∧
      get? ex.shape ax = some (m + 1) ∧ get? ey.shape ay = some (n + 1) ∧
      (∀ e, OutsideRange S A e → ∀ k ≤ m,
        ex.atB (Function.update e ax k) = lo.atB e + (k : K) * ((hi.atB e - lo.atB e) / (m : K))) ∧
      (∀ e, OutsideRange S A e → ∀ k ≤ n,
        ey.atB (Function.update e ay k) = lo'.atB e + (k : K) * ((hi'.atB e - lo'.atB e) / (n : K))) ∧
      (∀ z, get? hist.shape z = if z = ax then some m else if z = ay then some n else if z ∈ A then none else get? S z) ∧
      (∀ e, InRange hist.shape e → ∃ l, SlabOf S A e l ∧ hist.at' e =
        ((l.filter (fun e' => decide (Dim.InBin ⟨ex, ax, m⟩ e (x.atB e') ∧ Dim.InBin ⟨ey, ay, n⟩ e (y.atB e')))).map
          (weightsOf weights).atB).sum) ∧
      (0 < m → 0 < n → ∀ e, OutsideRange S A e → ∃ l, SlabOf S A e l ∧
        ((List.range m).flatMap (fun i => (List.range n).map (fun j =>
            hist.at' (Function.update (Function.update e ax i) ay j)))).sum =
          ((l.filter (fun e' => decide ((lo.atB e ≤ x.atB e' ∧ x.atB e' ≤ hi.atB e) ∧ lo'.atB e ≤ y.atB e' ∧ y.atB e' ≤ hi'.atB e))).map
            (weightsOf weights).atB).sum) := by
  have hS : WF S := (C01_broadcast_shapes_ok _ (by
    intro s hm
    rw [List.mem_append, List.mem_singleton] at hm
    rcases hm with hm | rfl
    · obtain ⟨a, ha, rfl⟩ := List.mem_map.1 hm
      exact SA.wf_shape (hs.wf a ha)
    · exact SA.wf_shape hs.wfw) S hs.shape).1
  obtain ⟨ex, u1, u2, u3⟩ := linspace_dim hS hb hax m
  obtain ⟨ey, v1, v2, v3⟩ := linspace_dim hS hb' hay n
  have hd : GoodDims S A [⟨ex, ax, m⟩, ⟨ey, ay, n⟩] := GoodDims.single (by
    intro D hD
    simp only [List.mem_cons, List.not_mem_nil, or_false] at hD
    rcases hD with rfl | rfl
    · exact u2
    · exact v2) (by simpa using hxy)
  obtain ⟨p, p1, p2, p3, p4⟩ := pairUp_ok [x, y] hs.wf weights hs.wfw hs.shape
  obtain ⟨ss, s1, s2, s3⟩ := histBroadcast hs (SA.wf_shape p2) p3
  obtain ⟨hist, c1, c2, c3, c4⟩ := C58_counts [x, y] weights axis S A hs _ hd rfl none none garbage
  obtain ⟨x', hx'⟩ : ∃ x', x.broadcastTo p.shape = .ok x' := by
    cases h : x.broadcastTo p.shape with
    | ok v => exact ⟨v, rfl⟩
    | error err => rw [List.mapM_cons, h] at s1; cases s1
  obtain ⟨y', hy'⟩ : ∃ y', y.broadcastTo p.shape = .ok y' := by
    cases h : y.broadcastTo p.shape with
    | ok v => exact ⟨v, rfl⟩
    | error err => rw [List.mapM_cons, hx', List.mapM_cons, h] at s1; cases s1
  have hrun := histogram2d_eq (axis := axis) (bins := .counts [(ax, (m : Int)), (ay, (n : Int))]) (min := some (lo, lo'))
    (max := some (hi, hi')) (density := false) (garbage := garbage) (ex := ex) (ey := ey) p1 hx' hy' (by
      have e1 : (m : Int) + 1 = ((m + 1 : Nat) : Int) := by push_cast; rfl
      have e2 : (n : Int) + 1 = ((n + 1 : Nat) : Int) := by push_cast; rfl
      unfold edges2d
      simp only [bind, Except.bind, boundsOf, Option.map_some, e1, e2, u1, v1]) c1
  have hnx : get? hist.shape ax = some m := (c3 _ _).2 (.inl ⟨_, List.mem_cons_self .., rfl, rfl⟩)
  have hny : get? hist.shape ay = some n :=
    (c3 _ _).2 (.inl ⟨_, List.mem_cons_of_mem _ (List.mem_singleton.2 rfl), rfl, rfl⟩)
  refine ⟨hist, ex, ey, hrun, c2, u2.wf ⟨ex, ax, m⟩ (by simp), v2.wf ⟨ey, ay, n⟩ (by simp), u2.size ⟨ex, ax, m⟩ (by simp),
    v2.size ⟨ey, ay, n⟩ (by simp), u3, v3, fun z => ?_, fun e he => ?_, fun hm hn e he => ?_⟩
  · by_cases h1 : z = ax
    · rw [if_pos h1, h1, hnx]
    rw [if_neg h1]
    by_cases h2 : z = ay
    · rw [if_pos h2, h2, hny]
    rw [if_neg h2]
    apply Option.ext
    intro k
    show get? hist.shape z = some k ↔ _
    rw [c3]
    by_cases h3 : z ∈ A
    · rw [if_pos h3]
      simp [h3, Ne.symm h1, Ne.symm h2]
    · rw [if_neg h3]
      simp [h3, h1, h2, Ne.symm h1, Ne.symm h2]
  · obtain ⟨l, l1, l2⟩ := c4 e he
    refine ⟨l, l1, l2.trans ?_⟩
    congr 2
    apply List.filter_congr
    intro e' _
    rw [decide_eq_decide]
    unfold Sampled
    simp
  · have hsl : SlabOf S A e (slabEnvs A p.size1 e) := slabOf_slabEnvs p2 p3 hs.nodup hs.sub e
    refine ⟨_, hsl, ?_⟩
    have ht := C58_total [x, y] weights axis S A hs _ hd rfl (by simpa using ⟨hm, hn⟩) none none garbage hist _ c1 e he _ _
      (slab_grid hxy hnx hny e) hsl
    rw [List.map_flatMap] at ht
    simp only [List.map_map] at ht
    refine ht.trans ?_
    congr 2
    apply List.filter_congr
    intro e' _
    rw [decide_eq_decide]
    have h0 : Dim.edge ⟨ex, ax, m⟩ e 0 = lo.atB e := by
      show ex.atB (Function.update e ax 0) = _
      rw [u3 e he 0 (by omega)]; simp
    have h1 : Dim.edge ⟨ex, ax, m⟩ e m = hi.atB e := by
      show ex.atB (Function.update e ax m) = _
      rw [u3 e he m (le_refl m)]
      have : (m : K) ≠ 0 := ne_of_gt (Nat.cast_pos.2 hm)
      field_simp
      ring
    have h2 : Dim.edge ⟨ey, ay, n⟩ e 0 = lo'.atB e := by
      show ey.atB (Function.update e ay 0) = _
      rw [v3 e he 0 (by omega)]; simp
    have h3 : Dim.edge ⟨ey, ay, n⟩ e n = hi'.atB e := by
      show ey.atB (Function.update e ay n) = _
      rw [v3 e he n (le_refl n)]
      have : (n : K) ≠ 0 := ne_of_gt (Nat.cast_pos.2 hn)
      field_simp
      ring
    unfold Covered
    simp [Dim.Inside, h0, h1, h2, h3]

/-! ### Concrete histograms -/

/-- samples of two channels -/
def exHist : SA ℚ := ⟨["c", "t"], ND.ofList [2, 4] [0, 1, 2, 6, 5, 4, 7, 2] 0⟩
/-- bounds of the channels -/
def exLo : SA ℚ := ⟨["c"], ND.ofList [2] [0, 1] 0⟩
def exHi : SA ℚ := ⟨["c"], ND.ofList [2] [6, 7] 0⟩
def exShape : Shape := [("c", 2), ("t", 4)]

example : GoodSamples [exHist] none (some ["t"]) exShape ["t"] := by
  refine ⟨fun s hs => ?_, by decide, by decide +kernel, by decide, by decide, .inl rfl⟩
  rw [List.mem_singleton] at hs
  subst hs
  decide

example : Bounds exShape ["t"] exLo exHi := by
  have hsh : exLo.shape = [("c", 2)] ∧ exHi.shape = [("c", 2)] := ⟨rfl, rfl⟩
  have hb : ∀ r : SA ℚ, r.WF → r.shape = [("c", 2)] → IsBound exShape ["t"] r := by
    intro r hr hs
    refine ⟨hr, fun x n hx => ?_⟩
    rw [hs, get?_cons] at hx
    by_cases h : "c" = x
    · subst h
      rw [if_pos rfl] at hx
      injection hx with hx
      subst hx
      exact ⟨by decide, 2, by decide, .inl rfl⟩
    · rw [if_neg h] at hx; cases hx
  refine ⟨hb _ (by decide) hsh.1, hb _ (by decide) hsh.2, fun e he => ?_⟩
  have hc : e "c" < 2 := he "c" 2 (by decide) (by decide)
  have h1 : exLo.atB e = [0, 1].getD (e "c") 0 := by
    rcases (by omega : e "c" = 0 ∨ e "c" = 1) with h | h <;>
      · have : exLo.atB e = exLo.atB (fun _ => e "c") := SA.atB_congr fun x hx => by
          rw [List.mem_singleton.1 hx]
        rw [this, h]; decide +kernel
  have h2 : exHi.atB e = [6, 7].getD (e "c") 0 := by
    rcases (by omega : e "c" = 0 ∨ e "c" = 1) with h | h <;>
      · have : exHi.atB e = exHi.atB (fun _ => e "c") := SA.atB_congr fun x hx => by
          rw [List.mem_singleton.1 hx]
        rw [this, h]; decide +kernel
  rw [h1, h2]
  rcases (by omega : e "c" = 0 ∨ e "c" = 1) with h | h <;> rw [h] <;> norm_num

/-- four edges, three bins; the last edge belongs to the last bin -/
example : (histogram exHist (.counts [("x", 4)]) (some ["t"]) (some exLo) (some exHi) false none (fun _ => 77)).map
    (fun r : SA ℚ × SA ℚ => (r.1.axes, r.1.nd.shape, r.1.nd.toList, r.2.axes, r.2.nd.toList)) =
    .ok (["c", "x"], [2, 3], [2, 1, 1, 1, 1, 2], ["c", "x"], [0, 2, 4, 6, 1, 3, 5, 7]) := by decide +kernel

/-- samples outside the bounds are dropped -/
example : (histogram exHist (.counts [("x", 3)]) (some ["t"]) (some (SA.scalar 0)) (some (SA.scalar 4)) false none (fun _ => 77)).map
    (fun r : SA ℚ × SA ℚ => (r.1.axes, r.1.nd.shape, r.1.nd.toList)) =
    .ok (["c", "x"], [2, 2], [2, 1, 0, 2]) := by decide +kernel

/-- densities, with the default bounds and over all axes -/
example : (histogram exHist (.counts [("x", 3)]) none none none true none (fun _ => 77)).map
    (fun r : SA ℚ × SA ℚ => (r.1.axes, r.1.nd.toList, r.2.nd.toList)) =
    .ok (["x"], [1 / 7, 1 / 7], [0, 7 / 2, 7]) := by decide +kernel

/-- weights in two dimensions -/
example : (histogram2d exHist (⟨["t"], ND.ofList [4] [0, 1, 2, 3] 0⟩ : SA ℚ) (.counts [("x", 2), ("y", 3)]) (some ["t"])
      (some (SA.scalar 0, SA.scalar 0)) (some (SA.scalar 8, SA.scalar 3)) false
      (some ⟨["c"], ND.ofList [2] [10, 100] 0⟩) (fun _ => 77)).map
    (fun r : SA ℚ × SA ℚ × SA ℚ => (r.1.axes, r.1.nd.shape, r.1.nd.toList)) =
    .ok (["c", "x", "y"], [2, 2, 3], [10, 10, 10, 0, 0, 10, 0, 0, 100, 100, 100, 100]) := by decide +kernel

/-- **C58** (refuted). The documentation of `na.histogram` says that the values of the dictionary `bins` are the numbers of bins,
but `bins={"x": 2}` gives one bin. -/
theorem C58_number_of_bins_refuted :
    ∃ (a : SA ℚ) (n : Nat) (hist edges : SA ℚ), a.WF ∧
      histogram a (.counts [("x", (n : Int))]) none none none false none (fun _ => 0) = .ok (hist, edges) ∧
      get? hist.shape "x" ≠ some n := by
  have h : (histogram exHist (.counts [("x", 2)]) none none none false none (fun _ => 0)).map
      (fun r : SA ℚ × SA ℚ => get? r.1.shape "x") = .ok (some 1) := by decide +kernel
  cases hr : histogram exHist (.counts [("x", 2)]) none none none false none (fun _ => 0) with
  | error err => rw [hr] at h; cases h
  | ok r =>
    rw [hr] at h
    injection h with h
    refine ⟨exHist, 2, r.1, r.2, by decide, hr, ?_⟩
    have h' : get? r.1.shape "x" = some 1 := h
    rw [h']
    decide

end NA
