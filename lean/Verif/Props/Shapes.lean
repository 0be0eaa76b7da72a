import Verif.ShapeLemmas

/-!
# Properties C01–C05: named shapes

Specification vocabulary: `Dict.get? s ax` is the size of axis `ax` in shape `s`;
`Dict.WF s` says that `s` is a genuine python `dict` (distinct keys).
-/

namespace NA
open Dict

/-- `ss` assigns the size `n` to axis `ax` somewhere. -/
def HasSize (ss : List Shape) (ax : String) (n : Nat) : Prop := ∃ s ∈ ss, get? s ax = some n

theorem hasSize_iff (ss : List Shape) (ax : String) (n : Nat) :
    HasSize ss ax n ↔ n ∈ sizesOf ss ax := by
  simp [HasSize, sizesOf, List.mem_filterMap]

/-- Two sizes of one axis clash. -/
def Clash (ss : List Shape) : Prop :=
  ∃ ax m n, HasSize ss ax m ∧ HasSize ss ax n ∧ m ≠ n ∧ m ≠ 1 ∧ n ≠ 1

/-- **C01** (failure). `broadcast_shapes` raises if and only if some axis occurs with two
different sizes neither of which is 1, and then it raises `ValueError`. -/
theorem C01_broadcast_shapes_error_iff (ss : List Shape) (hss : ∀ s ∈ ss, WF s) :
    (∃ e, broadcastShapes ss = .error e) ↔ Clash ss := by
  constructor
  · rintro ⟨e, he⟩
    obtain ⟨_, x, m, n, hm, hn, h⟩ := broadcastShapes_error hss he
    exact ⟨x, m, n, (hasSize_iff _ _ _).2 hm, (hasSize_iff _ _ _).2 hn, h⟩
  · rintro ⟨x, m, n, hm, hn, h1, h2, h3⟩
    cases hb : broadcastShapes ss with
    | error e => exact ⟨e, rfl⟩
    | ok r =>
      exact absurd ((broadcastShapes_joinOf hss hb).2 x)
        (not_joinOf_of_conflict ((hasSize_iff _ _ _).1 hm) ((hasSize_iff _ _ _).1 hn) h1 h2 h3 _)

/-- **C01** (kind of failure). -/
theorem C01_broadcast_shapes_error_kind (ss : List Shape) (hss : ∀ s ∈ ss, WF s) (e : Err)
    (h : broadcastShapes ss = .error e) : e = .valueError := (broadcastShapes_error hss h).1

/-- **C01** (success). The result is a genuine `dict`; it has an axis iff some argument has it;
its size there is one of the given sizes, and all the other given sizes are equal to it or 1. -/
theorem C01_broadcast_shapes_ok (ss : List Shape) (hss : ∀ s ∈ ss, WF s) (r : Shape)
    (h : broadcastShapes ss = .ok r) :
    WF r ∧
    (∀ ax, ax ∈ keys r ↔ ∃ s ∈ ss, ax ∈ keys s) ∧
    (∀ ax n, get? r ax = some n → HasSize ss ax n ∧ ∀ m, HasSize ss ax m → m = n ∨ m = 1) := by
  obtain ⟨hw, hj⟩ := broadcastShapes_joinOf hss h
  refine ⟨hw, fun ax => ?_, fun ax n hn => ?_⟩
  · constructor
    · intro hx
      obtain ⟨n, hn⟩ := exists_get?_of_mem hx
      have := hj ax
      rw [hn] at this
      obtain ⟨s, hs, hsn⟩ := (hasSize_iff ss ax n).2 this.1
      exact ⟨s, hs, mem_keys_of_get? hsn⟩
    · rintro ⟨s, hs, hx⟩
      obtain ⟨n, hn⟩ := exists_get?_of_mem hx
      have hm : n ∈ sizesOf ss ax := (hasSize_iff ss ax n).1 ⟨s, hs, hn⟩
      have := hj ax
      cases hr : get? r ax with
      | some m => exact mem_keys_of_get? hr
      | none => rw [hr] at this; simp only [JoinOf] at this; simp [this] at hm
  · have := hj ax
    rw [hn] at this
    exact ⟨(hasSize_iff _ _ _).2 this.1, fun m hm => this.2 m ((hasSize_iff _ _ _).1 hm)⟩

example : broadcastShapes [[("x", 3), ("y", 1)], [("y", 4)], [("z", 0), ("x", 1)]]
    = .ok [("x", 3), ("y", 4), ("z", 0)] := by decide
example : broadcastShapes [[("x", 3)], [("y", 4)], [("x", 2)]] = .error .valueError := by decide
example : Clash [[("x", 3)], [("y", 4)], [("x", 2)]] :=
  ⟨"x", 3, 2, ⟨[("x", 3)], by simp, rfl⟩, ⟨[("x", 2)], by simp, rfl⟩, by decide⟩
example : ∀ s ∈ [[("x", 3), ("y", 1)], [("y", 4)], [("z", 0), ("x", 1)]], WF (s : Shape) := by
  decide

/-- Two outcomes of `broadcast_shapes` are the same for a user: both raise, or both return the
same mapping (`dict` equality, which ignores the order of the keys). -/
def SameOutcome : R Shape → R Shape → Prop
  | .ok r, .ok r' => Same r r'
  | .error e, .error e' => e = e'
  | _, _ => False

/-- General form of **C02**: if two lists of shapes give the same sizes to every axis, broadcasting
them has the same outcome. -/
theorem broadcastShapes_sameOutcome_of_sizes (ss ss' : List Shape) (hss : ∀ s ∈ ss, WF s)
    (hss' : ∀ s ∈ ss', WF s) (h : ∀ ax n, HasSize ss ax n ↔ HasSize ss' ax n) :
    SameOutcome (broadcastShapes ss) (broadcastShapes ss') := by
  have hc : Clash ss ↔ Clash ss' := by simp only [Clash, h]
  cases hb : broadcastShapes ss with
  | error e =>
    obtain ⟨e', he'⟩ := (C01_broadcast_shapes_error_iff ss' hss').2
      (hc.1 ((C01_broadcast_shapes_error_iff ss hss).1 ⟨e, hb⟩))
    rw [he']
    exact (C01_broadcast_shapes_error_kind ss hss e hb).trans
      (C01_broadcast_shapes_error_kind ss' hss' e' he').symm
  | ok r =>
    cases hb' : broadcastShapes ss' with
    | error e' =>
      obtain ⟨e, he⟩ := (C01_broadcast_shapes_error_iff ss hss).2
        (hc.2 ((C01_broadcast_shapes_error_iff ss' hss').1 ⟨e', hb'⟩))
      rw [hb] at he; cases he
    | ok r' =>
      intro x
      refine joinOf_unique (fun n => ?_) ((broadcastShapes_joinOf hss hb).2 x)
        ((broadcastShapes_joinOf hss' hb').2 x)
      rw [← hasSize_iff, ← hasSize_iff]
      exact h x n

/-- **C02** (order and repetition). Only the set of arguments matters: permuting or repeating
arguments does not change the outcome. -/
theorem C02_order_and_repetition (ss ss' : List Shape) (hss : ∀ s ∈ ss, WF s)
    (h : ∀ s, s ∈ ss ↔ s ∈ ss') : SameOutcome (broadcastShapes ss) (broadcastShapes ss') :=
  broadcastShapes_sameOutcome_of_sizes ss ss' hss (fun s hs => hss s ((h s).2 hs))
    (fun ax n => by simp only [HasSize, h])

/-- **C02** (empty shape is neutral). -/
theorem C02_empty_neutral (ss ss' : List Shape) (hss : ∀ s ∈ ss ++ ss', WF s) :
    SameOutcome (broadcastShapes (ss ++ [] :: ss')) (broadcastShapes (ss ++ ss')) := by
  refine broadcastShapes_sameOutcome_of_sizes _ _ ?_ hss (fun ax n => ?_)
  · intro s hs
    simp at hs
    rcases hs with hs | rfl | hs
    · exact hss s (by simp [hs])
    · exact wf_nil
    · exact hss s (by simp [hs])
  · constructor
    · rintro ⟨s, hs, hn⟩
      simp at hs
      rcases hs with hs | rfl | hs
      · exact ⟨s, by simp [hs], hn⟩
      · simp at hn
      · exact ⟨s, by simp [hs], hn⟩
    · rintro ⟨s, hs, hn⟩
      simp at hs
      exact ⟨s, by simp; tauto, hn⟩

/-- **C02** (grouping). Broadcasting a contiguous group first and then the rest has the outcome
of broadcasting everything at once. -/
theorem C02_grouping (pre group post : List Shape) (hss : ∀ s ∈ pre ++ group ++ post, WF s) :
    SameOutcome
      (do let g ← broadcastShapes group; broadcastShapes (pre ++ [g] ++ post))
      (broadcastShapes (pre ++ group ++ post)) := by
  have hg : ∀ s ∈ group, WF s := fun s hs => hss s (by simp [hs])
  cases hb : broadcastShapes group with
  | error e =>
    have hclash : Clash group := (C01_broadcast_shapes_error_iff group hg).1 ⟨e, hb⟩
    have : Clash (pre ++ group ++ post) := by
      obtain ⟨x, m, n, ⟨s, hs, hm⟩, ⟨t, ht, hn⟩, h⟩ := hclash
      exact ⟨x, m, n, ⟨s, by simp [hs], hm⟩, ⟨t, by simp [ht], hn⟩, h⟩
    obtain ⟨e', he'⟩ := (C01_broadcast_shapes_error_iff _ hss).2 this
    rw [he']
    exact (C01_broadcast_shapes_error_kind group hg e hb).trans
      (C01_broadcast_shapes_error_kind _ hss e' he').symm
  | ok g =>
    show SameOutcome (broadcastShapes (pre ++ [g] ++ post)) _
    obtain ⟨hgw, hgj⟩ := broadcastShapes_joinOf hg hb
    have hss2 : ∀ s ∈ pre ++ [g] ++ post, WF s := by
      intro s hs
      simp at hs
      rcases hs with hs | rfl | hs
      · exact hss s (by simp [hs])
      · exact hgw
      · exact hss s (by simp [hs])
    have hsz : ∀ ax n, HasSize (pre ++ [g] ++ post) ax n → HasSize (pre ++ group ++ post) ax n := by
      rintro ax n ⟨s, hs, hn⟩
      simp at hs
      rcases hs with hs | rfl | hs
      · exact ⟨s, by simp [hs], hn⟩
      · have := hgj ax
        rw [hn] at this
        obtain ⟨t, ht, htn⟩ := (hasSize_iff _ _ _).2 this.1
        exact ⟨t, by simp [ht], htn⟩
      · exact ⟨s, by simp [hs], hn⟩
    have hsz' : ∀ ax n, HasSize (pre ++ group ++ post) ax n →
        HasSize (pre ++ [g] ++ post) ax n ∨ (n = 1 ∧ ∃ k, HasSize (pre ++ [g] ++ post) ax k) := by
      rintro ax n ⟨s, hs, hn⟩
      simp at hs
      rcases hs with hs | hs | hs
      · exact Or.inl ⟨s, by simp [hs], hn⟩
      · have h1 : n ∈ sizesOf group ax := (hasSize_iff _ _ _).1 ⟨s, hs, hn⟩
        have h2 := hgj ax
        cases hgx : get? g ax with
        | none => rw [hgx] at h2; simp only [JoinOf] at h2; simp [h2] at h1
        | some k =>
          rw [hgx] at h2
          rcases h2.2 n h1 with rfl | rfl
          · exact Or.inl ⟨g, by simp, hgx⟩
          · exact Or.inr ⟨rfl, k, g, by simp, hgx⟩
      · exact Or.inl ⟨s, by simp [hs], hn⟩
    have hc : Clash (pre ++ [g] ++ post) ↔ Clash (pre ++ group ++ post) := by
      constructor
      · rintro ⟨x, m, n, hm, hn, h⟩
        exact ⟨x, m, n, hsz _ _ hm, hsz _ _ hn, h⟩
      · rintro ⟨x, m, n, hm, hn, h1, h2, h3⟩
        refine ⟨x, m, n, ?_, ?_, h1, h2, h3⟩
        · rcases hsz' _ _ hm with h | h
          · exact h
          · exact absurd h.1 h2
        · rcases hsz' _ _ hn with h | h
          · exact h
          · exact absurd h.1 h3
    cases h1 : broadcastShapes (pre ++ [g] ++ post) with
    | error e =>
      obtain ⟨e', he'⟩ := (C01_broadcast_shapes_error_iff _ hss).2
        (hc.1 ((C01_broadcast_shapes_error_iff _ hss2).1 ⟨e, h1⟩))
      rw [he']
      exact (C01_broadcast_shapes_error_kind _ hss2 e h1).trans
        (C01_broadcast_shapes_error_kind _ hss e' he').symm
    | ok r =>
      cases h2 : broadcastShapes (pre ++ group ++ post) with
      | error e' =>
        obtain ⟨e, he⟩ := (C01_broadcast_shapes_error_iff _ hss2).2
          (hc.2 ((C01_broadcast_shapes_error_iff _ hss).1 ⟨e', h2⟩))
        rw [h1] at he; cases he
      | ok r' =>
        intro x
        have j1 := (broadcastShapes_joinOf hss2 h1).2 x
        have j2 := (broadcastShapes_joinOf hss h2).2 x
        cases hx : get? r x with
        | none =>
          rw [hx] at j1
          simp only [JoinOf] at j1
          cases hx' : get? r' x with
          | none => rfl
          | some n =>
            rw [hx'] at j2
            rcases hsz' x n ((hasSize_iff _ _ _).2 j2.1) with h | ⟨_, k, h⟩
            · rw [hasSize_iff, j1] at h; simp at h
            · rw [hasSize_iff, j1] at h; simp at h
        | some m =>
          rw [hx] at j1
          have hm := hsz x m ((hasSize_iff _ _ _).2 j1.1)
          rw [hasSize_iff] at hm
          cases hx' : get? r' x with
          | none => rw [hx'] at j2; simp only [JoinOf] at j2; rw [j2] at hm; simp at hm
          | some n =>
            rw [hx'] at j2
            congr 1
            rcases j2.2 m hm with h | h
            · exact h
            · rcases hsz' x n ((hasSize_iff _ _ _).2 j2.1) with h' | ⟨h', _⟩
              · rcases j1.2 n ((hasSize_iff _ _ _).1 h') with h'' | h''
                · exact h''.symm
                · rw [h, h'']
              · rw [h, h']

example : SameOutcome (broadcastShapes [[("x", 1)], [("y", 2), ("x", 5)]])
    (broadcastShapes [[("y", 2), ("x", 5)], [("x", 1)], [("x", 1)]]) :=
  C02_order_and_repetition _ _ (by decide) (by intro s; simp; tauto)

/-- **C03**. The axes of the result are in order of first appearance in the arguments:
`List.eraseDups` keeps the first occurrence of each element. -/
theorem C03_axis_order (ss : List Shape) (hss : ∀ s ∈ ss, WF s) (r : Shape)
    (h : broadcastShapes ss = .ok r) : keys r = (ss.flatMap keys).eraseDups := by
  cases ss with
  | nil => simp [broadcastShapes] at h; subst h; rfl
  | cons s ss =>
    exact foldlM_bcShape_keys (fun t ht => hss t (by simp [ht])) (hss s (by simp)) h

/-- **C03** (first argument). The axes of the first argument come first, in their order. -/
theorem C03_first_argument_prefix (s : Shape) (ss : List Shape) (hss : ∀ t ∈ s :: ss, WF t)
    (r : Shape) (h : broadcastShapes (s :: ss) = .ok r) : keys s <+: keys r := by
  rw [C03_axis_order _ hss r h, List.flatMap_cons, eraseDups_append_filter,
    eraseDups_of_nodup (hss s (by simp))]
  exact List.prefix_append _ _

example : broadcastShapes [[("y", 2), ("x", 1)], [("z", 4), ("x", 3)]]
    = .ok [("y", 2), ("x", 3), ("z", 4)] := by decide

/-! ### C04 -/

theorem foldl_erase_eq_filter (shape : Shape) (ign : List String) :
    ign.foldl (fun s ax => Dict.erase s ax) shape = shape.filter (fun p => p.1 ∉ ign) := by
  induction ign generalizing shape with
  | nil => simp
  | cons a ign ih =>
    rw [List.foldl_cons, ih, Dict.erase, List.filter_filter]
    apply List.filter_congr
    intro p _
    simp [Bool.and_comm]

theorem zip_values_of_length {k : List String} {i : List Nat} (h : k.length = i.length) :
    Dict.values (k.zip i) = i ∧ Dict.keys (k.zip i) = k := by
  constructor
  · exact List.map_snd_zip (by omega)
  · exact List.map_fst_zip (by omega)

theorem forall₂_lt_iff (shape : Shape) (d : Dict Nat) (hk : keys d = keys shape) (hw : WF shape) :
    List.Forall₂ (· < ·) (values d) (values shape) ↔
      ∀ ax n, get? shape ax = some n → ∃ i, get? d ax = some i ∧ i < n := by
  induction shape generalizing d with
  | nil => cases d with
    | nil => simp
    | cons p d => simp at hk
  | cons p shape ih =>
    cases d with
    | nil => simp at hk
    | cons q d =>
      simp at hk
      rw [wf_cons] at hw
      simp only [values_cons, List.forall₂_cons]
      rw [ih d hk.2 hw.2]
      constructor
      · rintro ⟨h1, h2⟩ ax n hn
        rw [get?_cons] at hn ⊢
        rw [hk.1]
        split at hn
        · next h => cases hn; exact ⟨q.2, by simp [h], h1⟩
        · next h => simpa [h] using h2 ax n hn
      · intro h
        refine ⟨?_, fun ax n hn => ?_⟩
        · obtain ⟨i, hi, hlt⟩ := h p.1 p.2 (by simp [get?_cons])
          rw [get?_cons, hk.1] at hi
          simp at hi
          omega
        · have hne : p.1 ≠ ax := by
            rintro rfl
            exact hw.1 (mem_keys_of_get? hn)
          obtain ⟨i, hi, hlt⟩ := h ax n (by simp [get?_cons, hne, hn])
          rw [get?_cons, hk.1] at hi
          simp [hne] at hi
          exact ⟨i, hi, hlt⟩

/-- The axes which `ndindex` does not ignore, with their sizes. -/
def keptAxes (shape : Shape) (ign : List String) : Shape := shape.filter (fun p => p.1 ∉ ign)

/-- **C04** (completeness and soundness). `ndindex` yields exactly the dictionaries whose keys
are the non-ignored axes in order and whose values are in range. -/
theorem C04_ndindex_mem (shape : Shape) (hw : WF shape) (ign : List String) (d : Dict Nat) :
    d ∈ ndindex shape ign ↔
      keys d = (keys shape).filter (· ∉ ign) ∧
      ∀ ax n, get? shape ax = some n → ax ∉ ign → ∃ i, get? d ax = some i ∧ i < n := by
  have hkeys : keys (keptAxes shape ign) = (keys shape).filter (· ∉ ign) := by
    unfold keptAxes keys
    rw [List.filter_map]
    rfl
  have hkw : WF (keptAxes shape ign) := by
    unfold WF; rw [hkeys]; exact hw.filter _
  have hget : ∀ ax n, get? (keptAxes shape ign) ax = some n ↔ get? shape ax = some n ∧ ax ∉ ign := by
    intro ax n
    rw [← mem_iff_get? hkw, ← mem_iff_get? hw, keptAxes, List.mem_filter]
    simp
  unfold ndindex
  rw [foldl_erase_eq_filter]
  change d ∈ (ndIndices (keptAxes shape ign).values).map
    (fun index => (keptAxes shape ign).keys.zip index) ↔ _
  rw [List.mem_map]
  constructor
  · rintro ⟨i, hi, rfl⟩
    rw [mem_ndIndices] at hi
    have hl : (keys (keptAxes shape ign)).length = i.length := by simp [hi.length_eq]
    obtain ⟨hv, hk⟩ := zip_values_of_length hl
    refine ⟨by rw [hk, hkeys], ?_⟩
    rw [← hv] at hi
    rw [forall₂_lt_iff _ _ hk hkw] at hi
    intro ax n hn hi'
    exact hi ax n ((hget ax n).2 ⟨hn, hi'⟩)
  · rintro ⟨hk, h⟩
    rw [← hkeys] at hk
    refine ⟨values d, ?_, ?_⟩
    · rw [mem_ndIndices, forall₂_lt_iff _ _ hk hkw]
      intro ax n hn
      obtain ⟨h1, h2⟩ := (hget ax n).1 hn
      exact h ax n h1 h2
    · rw [← hk]
      unfold keys values
      exact (List.zip_of_prod rfl rfl).symm

/-- **C04** (no repetition). -/
theorem C04_ndindex_nodup (shape : Shape) (ign : List String) : (ndindex shape ign).Nodup := by
  unfold ndindex
  refine List.Nodup.map_on ?_ (nodup_ndIndices _)
  intro x hx y hy h
  rw [mem_ndIndices] at hx hy
  have h1 := (zip_values_of_length (k := keys (ign.foldl (fun s ax => Dict.erase s ax) shape)) (i := x)
    (by simp [hx.length_eq])).1
  have h2 := (zip_values_of_length (k := keys (ign.foldl (fun s ax => Dict.erase s ax) shape)) (i := y)
    (by simp [hy.length_eq])).1
  rw [← h1, ← h2]
  exact congrArg _ h

/-- **C04** (order). The dictionaries are yielded in lexicographic (row-major) order. -/
theorem C04_ndindex_sorted (shape : Shape) (ign : List String) :
    (ndindex shape ign).Pairwise (fun d d' => List.Lex (· < ·) d.values d'.values) := by
  unfold ndindex
  rw [List.pairwise_map]
  refine List.Pairwise.imp_of_mem ?_ (sorted_ndIndices _)
  intro x y hx hy h
  rw [mem_ndIndices] at hx hy
  rw [(zip_values_of_length (by simp [hx.length_eq])).1,
    (zip_values_of_length (by simp [hy.length_eq])).1]
  exact h

example : ndindex [("x", 2), ("t", 9), ("y", 2)] ["t"] =
    [[("x", 0), ("y", 0)], [("x", 0), ("y", 1)], [("x", 1), ("y", 0)], [("x", 1), ("y", 1)]] := by
  decide

/-! ### C05 -/

theorem typeArrayStep_foldl (vs : List DispatchArg) (c : Option String) (p : Nat) :
    let r := vs.foldl typeArrayStep (c, p)
    (r = (c, p) ∧ ∀ c' p', DispatchArg.named c' p' ∈ vs → p' ≤ p) ∨
    (∃ c' pre post, r.1 = some c' ∧ vs = pre ++ DispatchArg.named c' r.2 :: post ∧ p < r.2 ∧
      (∀ d q, DispatchArg.named d q ∈ pre → q < r.2) ∧
      (∀ d q, DispatchArg.named d q ∈ post → q ≤ r.2)) := by
  induction vs generalizing c p with
  | nil => simp
  | cons v vs ih =>
    intro r
    simp only [r, List.foldl_cons]
    cases v with
    | other =>
      simp only [typeArrayStep]
      rcases ih c p with ⟨h1, h2⟩ | ⟨c', pre, post, h1, h2, h3, h4, h5⟩
      · left
        exact ⟨h1, fun c' p' h => h2 c' p' (by simpa using h)⟩
      · right
        refine ⟨c', .other :: pre, post, h1, by rw [List.cons_append, ← h2], h3, ?_, h5⟩
        intro d q h
        exact h4 d q (by simpa using h)
    | named cls q =>
      simp only [typeArrayStep]
      split
      · next hq =>
        right
        rcases ih (some cls) q with ⟨h1, h2⟩ | ⟨c', pre, post, h1, h2, h3, h4, h5⟩
        · refine ⟨cls, [], vs, by rw [h1], by rw [h1]; rfl, by rw [h1]; exact hq, by simp, ?_⟩
          rw [h1]; exact h2
        · refine ⟨c', .named cls q :: pre, post, h1, by rw [List.cons_append, ← h2], by omega, ?_, h5⟩
          intro d q' h
          rcases List.mem_cons.1 h with h | h
          · injection h with _ h; subst h; exact h3
          · exact h4 d q' h
      · next hq =>
        rcases ih c p with ⟨h1, h2⟩ | ⟨c', pre, post, h1, h2, h3, h4, h5⟩
        · left
          refine ⟨h1, fun c' p' h => ?_⟩
          rcases List.mem_cons.1 h with h | h
          · injection h with _ h; omega
          · exact h2 c' p' h
        · right
          refine ⟨c', .named cls q :: pre, post, h1, by rw [List.cons_append, ← h2], h3, ?_, h5⟩
          intro d q' h
          rcases List.mem_cons.1 h with h | h
          · injection h with _ h; omega
          · exact h4 d q' h

/-- **C05**. `type_array` returns the class of the first argument with the greatest priority. -/
theorem C05_type_array_some (vs : List DispatchArg) (c : String) (h : typeArray vs = some c) :
    ∃ pre p post, vs = pre ++ DispatchArg.named c p :: post ∧
      (∀ d q, DispatchArg.named d q ∈ pre → q < p) ∧
      (∀ d q, DispatchArg.named d q ∈ post → q ≤ p) := by
  unfold typeArray at h
  rcases typeArrayStep_foldl vs none 0 with ⟨h1, _⟩ | ⟨c', pre, post, h1, h2, h3, h4, h5⟩
  · rw [h1] at h; cases h
  · rw [h1] at h
    injection h with h
    subst h
    exact ⟨pre, _, post, h2, h4, h5⟩

/-- **C05**. When every class has a positive priority, `type_array` returns `None` exactly when no
argument is a named array. -/
theorem C05_type_array_none (vs : List DispatchArg)
    (hpos : ∀ c p, DispatchArg.named c p ∈ vs → 0 < p) :
    typeArray vs = none ↔ ∀ v ∈ vs, v = DispatchArg.other := by
  unfold typeArray
  rcases typeArrayStep_foldl vs none 0 with ⟨h1, h2⟩ | ⟨c', pre, post, h1, h2, h3, h4, h5⟩
  · rw [h1]
    simp only [true_iff]
    intro v hv
    cases v with
    | other => rfl
    | named c p =>
      have := hpos c p hv
      have := h2 c p hv
      omega
  · rw [h1]
    simp only [reduceCtorEq, false_iff]
    intro h
    generalize (vs.foldl typeArrayStep (none, 0)).2 = q at h2
    have := h (DispatchArg.named c' q) (by rw [h2]; simp)
    cases this

example : typeArray [.other, .named "ScalarArray" 1, .named "V2" 100, .named "V3" 100]
    = some "V2" := by decide

end NA
