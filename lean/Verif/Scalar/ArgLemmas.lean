import Verif.Props.Axes
import Verif.Props.Reductions

/-!
# Lemmas about dictionaries of index arrays
-/

namespace NA
open Dict

theorem broadcastShapes_fits_all {s : Shape} {ss : List Shape}
    (h : ∀ t ∈ ss, Dict.WF t ∧ ∀ ax m, get? t ax = some m → ∃ n, get? s ax = some n ∧ (m = n ∨ m = 1)) :
    broadcastShapes (s :: ss) = .ok s := by
  induction ss with
  | nil => rfl
  | cons t ss ih =>
    have h1 := broadcastShapes_fits (s := s) (t := t) (h t (by simp)).2 (h t (by simp)).1
    simp only [broadcastShapes, List.foldlM_cons, List.foldlM_nil] at h1 ih ⊢
    have h2 : bcShape s t = .ok s := by
      cases hb : bcShape s t with
      | error e => rw [hb] at h1; cases h1
      | ok s' => rw [hb] at h1; simpa [bind, Except.bind, pure, Except.pure] using h1
    rw [h2]
    exact ih (fun t' ht' => h t' (by simp [ht']))

namespace SA
variable {α β : Type}

theorem get?_asItem (d : Dict (SA Int)) (ax : String) :
    get? (asItem d) ax = (get? d ax).map IndexVal.arr := by
  unfold asItem
  induction d with
  | nil => rfl
  | cons p d ih =>
    simp only [List.map_cons, get?_cons, ih]
    split <;> simp

theorem keys_asItem (d : Dict (SA Int)) : keys (asItem d) = keys d := by
  unfold asItem keys
  rw [List.map_map]
  rfl

theorem arrayShapes_asItem (d : Dict (SA Int)) : arrayShapes (asItem d) = d.values.map SA.shape := by
  unfold asItem arrayShapes values
  induction d with
  | nil => rfl
  | cons p d ih => simpa using ih

/-- Indexing with one array of natural numbers for each axis. -/
theorem getitem_full {a : SA α} (ha : a.WF) {d : Dict (SA Int)} (hd : Dict.WF d)
    (hk : ∀ ax, ax ∈ keys d ↔ ax ∈ a.axes) (hw : ∀ b ∈ d.values, b.WF) {S : Shape}
    (hS : broadcastShapes (d.values.map SA.shape) = .ok S)
    (pos : String → (String → Nat) → Nat)
    (hval : ∀ ax b, get? d ax = some b → (∀ e, InRange b.shape e →
      b.at' e = (pos ax e : Int) ∧ pos ax e < a.sizeOf' ax)) :
    ∃ r, a.getitem (asItem d) = .ok r ∧ r.WF ∧ r.axes = keys S ∧ r.shape = S ∧
      ∀ e, r.at' e = a.at' (fun ax => ND.pyIndex (a.sizeOf' ax) (((get? d ax).getD (scalar 0)).atB e)) := by
  have hknown : known a.axes (asItem d) = asItem d := by
    unfold known
    rw [List.filter_eq_self]
    intro p hp
    have : p.1 ∈ keys (asItem d) := List.mem_map.2 ⟨p, hp, rfl⟩
    rw [keys_asItem, hk] at this
    simpa using this
  have hi : ItemWF (asItem d) := by
    refine ⟨by unfold Dict.WF; rw [keys_asItem]; exact hd, ?_⟩
    intro ax b hb
    unfold asItem at hb
    obtain ⟨p, hp, hpe⟩ := List.mem_map.1 hb
    injection hpe with h1 h2
    injection h2 with h2
    subst h2
    exact hw _ (List.mem_map.2 ⟨p, hp, rfl⟩)
  have hget : ∀ ax ∈ a.axes, ∃ b, get? d ax = some b := fun ax hax => exists_get?_of_mem ((hk ax).2 hax)
  obtain ⟨r, rest, h1, h2, h3, _, h5, h6, _, h8⟩ := C14_getitem_arrays a ha (asItem d) hi S
    (by rw [hknown, arrayShapes_asItem]; exact hS)
    (by
      intro ax hax sl hsl
      rw [get?_asItem] at hsl
      cases h : get? d ax <;> simp [h] at hsl)
    (by
      intro ax n hn
      refine ⟨?_, ?_⟩
      · intro i hsl
        rw [get?_asItem] at hsl
        cases h : get? d ax <;> simp [h] at hsl
      · intro b hb e he
        rw [get?_asItem] at hb
        cases h : get? d ax with
        | none => simp [h] at hb
        | some b' =>
          simp [h] at hb
          subst hb
          obtain ⟨g1, g2⟩ := hval ax b' h e he
          rw [g1]
          have : a.sizeOf' ax = n := by simp [sizeOf', hn]
          unfold ND.ValidIndex
          omega)
    (by
      intro ax _ hax
      right
      obtain ⟨b, hb⟩ := hget ax hax
      exact ⟨b, by rw [get?_asItem, hb]; rfl⟩)
  have hrest : rest = [] := by
    rw [List.eq_nil_iff_forall_not_mem]
    intro ax hax
    obtain ⟨g1, _, g3⟩ := (h5 ax).1 hax
    obtain ⟨b, hb⟩ := hget ax g1
    exact g3 b (by rw [get?_asItem, hb]; rfl)
  subst hrest
  rw [List.append_nil] at h3
  refine ⟨r, h1, h2, h3, ?_, ?_⟩
  · have hSw : Dict.WF S := (broadcastShapes_joinOf (by
      intro s hs
      obtain ⟨b, hb, rfl⟩ := List.mem_map.1 hs
      exact wf_shape (hw b hb)) hS).1
    have hv : r.nd.shape = values S := by
      rw [shape_eq_map h2, h3, ← posShape_keys hSw]
      unfold posShape
      apply List.map_congr_left
      intro ax hax
      unfold sizeOf'
      rw [h6 ax hax]
      obtain ⟨n, hn⟩ := exists_get?_of_mem hax
      simp [hn]
    have := shape_of_mk hSw hv
    unfold shape at this ⊢
    rw [h3]; exact this
  · intro e
    rw [h8]
    apply at'_congr
    intro ax hax
    obtain ⟨b, hb⟩ := hget ax hax
    unfold selIdx
    rw [get?_asItem, hb]
    rfl

theorem pyIndex_nat (n k : Nat) : ND.pyIndex n (k : Int) = k := by
  unfold ND.pyIndex
  rw [if_neg (by omega)]
  simp

theorem get?_append' {β : Type} (d d' : Dict β) (x : String) :
    get? (d ++ d') x = if x ∈ keys d then get? d x else get? d' x := by
  induction d with
  | nil => simp [keys]
  | cons p d ih =>
    rw [List.cons_append, get?_cons, get?_cons, ih]
    by_cases h : p.1 = x
    · simp [h, keys]
    · have : x ≠ p.1 := fun hh => h hh.symm
      simp only [h, if_false, keys_cons, List.mem_cons, this, false_or]

theorem get?_map_pair {β γ : Type} (d : Dict β) (f : String → β → γ) (x : String) :
    get? (d.map (fun p => (p.1, f p.1 p.2))) x = (get? d x).map (f x) := by
  induction d with
  | nil => rfl
  | cons p d ih =>
    simp only [List.map_cons, get?_cons, ih]
    split
    · next h => rw [h]; rfl
    · rfl

theorem get?_map_list {γ : Type} {l : List String} (f : String → γ) (x : String) :
    get? (l.map (fun ax => (ax, f ax))) x = if x ∈ l then some (f x) else none := by
  induction l with
  | nil => rfl
  | cons y l ih =>
    simp only [List.map_cons, get?_cons, ih, List.mem_cons]
    by_cases h : y = x
    · subst h; simp
    · have : x ≠ y := fun hh => h hh.symm
      simp [h, this]

theorem zipIdx_map_eq {γ : Type} {l : List String} (hl : l.Nodup) (f : String → Nat → γ) :
    l.zipIdx.map (fun p => (p.1, f p.1 p.2)) = l.map (fun ax => (ax, f ax (l.idxOf ax))) := by
  apply List.ext_getElem
  · simp
  · intro i h1 h2
    have hi : i < l.length := by simpa using h2
    simp [hl.idxOf_getElem]

theorem wf_arange (ax : String) (n : Nat) : (arange ax n).WF := ⟨rfl, by simp [arange]⟩

theorem shape_arange (ax : String) (n : Nat) : (arange ax n).shape = [(ax, n)] := rfl

/-- Indexing with the unravelled flat indices over `A` and the ranges along the other axes. -/
theorem getitem_unravel' {a : SA α} (ha : a.WF) {A : List String} (hA : A.Nodup) (hAne : A ≠ [])
    (hAs : A ⊆ a.axes) {indices : SA Nat} (hi : indices.WF)
    (hrest : ∀ ax ∈ a.axes, ax ∉ A → get? indices.shape ax = get? a.shape ax)
    (hval : ∀ e, InRange indices.shape e → indices.at' e < (A.map a.sizeOf').prod) :
    ∃ d, unravelIndex indices (A.map (fun ax => (ax, a.sizeOf' ax))) = .ok d ∧
      (∀ ax, ax ∈ keys (a.completeIndex d) ↔ ax ∈ a.axes) ∧
      (∀ ax ∈ A, ∃ b, get? (a.completeIndex d) ax = some b ∧ b.WF ∧ b.axes = indices.axes ∧
        b.shape = indices.shape ∧
        ∀ e, b.at' e = ((ND.unravel (A.map a.sizeOf') (indices.at' e)).getD (A.idxOf ax) 0 : Nat)) ∧
      (∀ ax ∈ a.axes, ax ∉ A → get? (a.completeIndex d) ax = some (arange ax (a.sizeOf' ax))) ∧
      Dict.WF (a.completeIndex d) ∧
      broadcastShapes ((a.completeIndex d).values.map SA.shape) = .ok indices.shape ∧
      ∃ r, a.getitem (asItem (a.completeIndex d)) = .ok r ∧ r.WF ∧ r.axes = indices.axes ∧
        r.shape = indices.shape ∧ ∀ e, InRange indices.shape e →
          r.at' e = a.at' (slabEnv A (ND.unravel (A.map a.sizeOf') (indices.at' e)) e) := by
  have hkA : keys (A.map (fun ax => (ax, a.sizeOf' ax))) = A := by
    unfold keys; rw [List.map_map]; simp [Function.comp_def]
  have hvA : values (A.map (fun ax => (ax, a.sizeOf' ax))) = A.map a.sizeOf' := by
    unfold values; rw [List.map_map]; simp [Function.comp_def]
  have hcond : ∀ i ∈ ndIndices indices.nd.shape, indices.nd.get i < (A.map a.sizeOf').prod := by
    intro i hmem
    rw [ND.mem_ndIndices_iff, shape_eq_map hi] at hmem
    obtain ⟨e, rfl, he⟩ := exists_env hi.2 hmem
    apply hval e
    rw [inRange_nd hi, shape_eq_map hi, inRange_map]
    exact he
  let B : String → SA Int := fun ax => ⟨indices.axes, indices.nd.map
    (fun k => ((ND.unravel (A.map a.sizeOf') k).getD (A.idxOf ax) 0 : Nat))⟩
  let d : Dict (SA Int) := A.map (fun ax => (ax, B ax))
  have hd : unravelIndex indices (A.map (fun ax => (ax, a.sizeOf' ax))) = .ok d := by
    unfold unravelIndex
    rw [hvA, hkA, if_pos hcond]
    rw [zipIdx_map_eq hA (fun _ i => (⟨indices.axes, indices.nd.map
      (fun k => (((ND.unravel (A.map a.sizeOf') k).getD i 0 : Nat) : Int))⟩ : SA Int))]
  have hkd : keys d = A := by
    show keys (A.map (fun ax => (ax, B ax))) = A
    unfold keys; rw [List.map_map]; simp [Function.comp_def]
  have hcd : a.completeIndex d = d ++ (a.shape.filter (fun p => p.1 ∉ A)).map
      (fun p => (p.1, arange p.1 p.2)) := by
    unfold completeIndex; rw [hkd]
  have hkr : keys ((a.shape.filter (fun p => p.1 ∉ A)).map (fun p => (p.1, arange p.1 p.2))) =
      a.axes.filter (· ∉ A) := by
    conv_rhs => rw [← keys_shape ha]
    unfold keys
    rw [List.map_map, List.filter_map]
    rfl
  have hkc : keys (a.completeIndex d) = A ++ a.axes.filter (· ∉ A) := by
    rw [hcd, keys, List.map_append]
    rw [keys] at hkd hkr
    rw [hkd, hkr]
  have hcw : Dict.WF (a.completeIndex d) := by
    unfold Dict.WF
    rw [hkc, List.nodup_append]
    refine ⟨hA, ha.2.filter _, ?_⟩
    intro x hx y hy hxy
    subst hxy
    simp [hx] at hy
  have hmemk : ∀ ax, ax ∈ keys (a.completeIndex d) ↔ ax ∈ a.axes := by
    intro ax
    rw [hkc, List.mem_append, List.mem_filter, decide_eq_true_eq]
    constructor
    · rintro (h | h)
      · exact hAs h
      · exact h.1
    · intro h
      by_cases hx : ax ∈ A
      · exact .inl hx
      · exact .inr ⟨h, hx⟩
  have hgA : ∀ ax ∈ A, get? (a.completeIndex d) ax = some (B ax) := by
    intro ax hax
    rw [hcd, get?_append', hkd, if_pos hax, get?_map_list, if_pos hax]
  have hgR : ∀ ax ∈ a.axes, ax ∉ A → get? (a.completeIndex d) ax = some (arange ax (a.sizeOf' ax)) := by
    intro ax hax hxA
    rw [hcd, get?_append', hkd, if_neg hxA, get?_map_pair, get?_filter a.shape (· ∉ A) ax, if_pos hxA]
    obtain ⟨n, hn⟩ := exists_get?_of_mem (d := a.shape) (by rw [keys_shape ha]; exact hax)
    simp [hn, sizeOf']
  have hBwf : ∀ ax, (B ax).WF := fun ax => ⟨hi.1, hi.2⟩
  have hBsh : ∀ ax, (B ax).shape = indices.shape := fun _ => rfl
  have hBat : ∀ ax e, (B ax).at' e =
      ((ND.unravel (A.map a.sizeOf') (indices.at' e)).getD (A.idxOf ax) 0 : Nat) := fun _ _ => rfl
  have hvals : ∀ b ∈ (a.completeIndex d).values, b.WF ∧
      (b.shape = indices.shape ∨ ∃ ax n, b = arange ax n ∧ ax ∈ a.axes ∧ ax ∉ A ∧ get? a.shape ax = some n) := by
    intro b hb
    obtain ⟨p, hp, rfl⟩ := List.mem_map.1 hb
    have hgp := get?_of_mem hcw hp
    have hpk : p.1 ∈ a.axes := (hmemk p.1).1 (mem_keys_of_get? hgp)
    by_cases hx : p.1 ∈ A
    · rw [hgA p.1 hx] at hgp
      injection hgp with hgp
      rw [← hgp]
      exact ⟨hBwf _, .inl rfl⟩
    · rw [hgR p.1 hpk hx] at hgp
      injection hgp with hgp
      rw [← hgp]
      refine ⟨wf_arange _ _, .inr ⟨p.1, _, rfl, hpk, hx, ?_⟩⟩
      obtain ⟨n, hn⟩ := exists_get?_of_mem (d := a.shape) (by rw [keys_shape ha]; exact hpk)
      simp [hn, sizeOf']
  have hS : broadcastShapes ((a.completeIndex d).values.map SA.shape) = .ok indices.shape := by
    have hfit : ∀ t ∈ (a.completeIndex d).values.map SA.shape, Dict.WF t ∧
        ∀ ax m, get? t ax = some m → ∃ n, get? indices.shape ax = some n ∧ (m = n ∨ m = 1) := by
      intro t ht
      obtain ⟨b, hb, rfl⟩ := List.mem_map.1 ht
      obtain ⟨h1, h2⟩ := hvals b hb
      refine ⟨wf_shape h1, ?_⟩
      rcases h2 with h2 | ⟨ax, n, rfl, h3, h4, h5⟩
      · rw [h2]; exact fun ax m hm => ⟨m, hm, .inl rfl⟩
      · intro ax' m hm
        rw [shape_arange, get?_cons, get?_nil] at hm
        split at hm
        · next h => 
          subst h
          injection hm with hm
          subst hm
          exact ⟨n, by rw [hrest ax h3 h4, h5], .inl rfl⟩
        · cases hm
    cases hAc : A with
    | nil => exact absurd hAc hAne
    | cons x A' =>
      have : ∃ l, (a.completeIndex d).values.map SA.shape = indices.shape :: l := by
        rw [hcd]
        simp only [values, List.map_append]
        show ∃ l, List.map shape (List.map Prod.snd (A.map (fun ax => (ax, B ax)))) ++ _ = _
        rw [hAc]
        exact ⟨_, rfl⟩
      obtain ⟨l, hl⟩ := this
      rw [hl] at hfit ⊢
      exact broadcastShapes_fits_all (fun t ht => hfit t (by simp [ht]))
  obtain ⟨r, g1, g2, g3, g4, g5⟩ := getitem_full ha hcw hmemk (fun b hb => (hvals b hb).1) hS
    (fun ax e => if ax ∈ A then (ND.unravel (A.map a.sizeOf') (indices.at' e)).getD (A.idxOf ax) 0 else e ax)
    (by
      intro ax b hb e he
      have hax : ax ∈ a.axes := (hmemk ax).1 (mem_keys_of_get? hb)
      by_cases hx : ax ∈ A
      · rw [hgA ax hx] at hb
        injection hb with hb
        subst hb
        simp only [if_pos hx]
        refine ⟨hBat ax e, ?_⟩
        have hir := ND.inRange_unravel (hval e he)
        have hl : (ND.unravel (A.map a.sizeOf') (indices.at' e)).length = A.length := by
          rw [ND.length_unravel]; simp
        rw [← map_envOf hA hl, inRange_map] at hir
        exact hir ax hx
      · rw [hgR ax hax hx] at hb
        injection hb with hb
        subst hb
        simp only [if_neg hx]
        refine ⟨rfl, ?_⟩
        exact he ax _ (by rw [shape_arange, get?_cons, if_pos rfl]))
  have hiw : Dict.WF indices.shape := wf_shape hi
  refine ⟨d, hd, hmemk, ?_, hgR, hcw, hS, r, g1, g2, by rw [g3, keys_shape hi], g4, ?_⟩
  · intro ax hax
    exact ⟨B ax, hgA ax hax, hBwf ax, rfl, rfl, hBat ax⟩
  · intro e he
    rw [g5]
    apply at'_congr
    intro ax hax
    unfold slabEnv
    by_cases hx : ax ∈ A
    · rw [hgA ax hx, if_pos hx, Option.getD_some, atB_eq_at' (hBwf ax) (by rw [hBsh]; exact he), hBat,
        pyIndex_nat]
    · rw [hgR ax hax hx, if_neg hx, Option.getD_some, atB_eq_at' (wf_arange _ _)]
      · have : (arange ax (a.sizeOf' ax)).at' e = ((e ax : Nat) : Int) := rfl
        rw [this, pyIndex_nat]
      · intro ax' m hm
        rw [shape_arange, get?_cons, get?_nil] at hm
        split at hm
        · next h =>
          subst h
          injection hm with hm
          subst hm
          obtain ⟨n, hn⟩ := exists_get?_of_mem (d := a.shape) (by rw [keys_shape ha]; exact hax)
          have h7 := he ax n (by rw [hrest ax hax hx, hn])
          simpa [sizeOf', hn] using h7
        · cases hm

theorem getitem_unravel {a : SA α} (ha : a.WF) {A : List String} (hA : A.Nodup) (hAne : A ≠ [])
    (hAs : A ⊆ a.axes) {indices : SA Nat} (hi : indices.WF)
    (hrest : ∀ ax ∈ a.axes, ax ∉ A → get? indices.shape ax = get? a.shape ax)
    (hval : ∀ e, InRange indices.shape e → indices.at' e < (A.map a.sizeOf').prod) :
    ∃ d, unravelIndex indices (A.map (fun ax => (ax, a.sizeOf' ax))) = .ok d ∧
      (∀ ax, ax ∈ keys (a.completeIndex d) ↔ ax ∈ a.axes) ∧
      (∀ ax ∈ A, ∃ b, get? (a.completeIndex d) ax = some b ∧ b.WF ∧ b.axes = indices.axes ∧
        b.shape = indices.shape ∧
        ∀ e, b.at' e = ((ND.unravel (A.map a.sizeOf') (indices.at' e)).getD (A.idxOf ax) 0 : Nat)) ∧
      (∀ ax ∈ a.axes, ax ∉ A → get? (a.completeIndex d) ax = some (arange ax (a.sizeOf' ax))) ∧
      ∃ r, a.getitem (asItem (a.completeIndex d)) = .ok r ∧ r.WF ∧ r.axes = indices.axes ∧
        r.shape = indices.shape ∧ ∀ e, InRange indices.shape e →
          r.at' e = a.at' (slabEnv A (ND.unravel (A.map a.sizeOf') (indices.at' e)) e) := by
  obtain ⟨d, h1, h2, h3, h4, _, _, h5⟩ := getitem_unravel' ha hA hAne hAs hi hrest hval
  exact ⟨d, h1, h2, h3, h4, h5⟩

/-- The elements of `a` over the axes `A` in row-major order. -/
def slabList (a : SA α) (A : List String) (e : String → Nat) : List α :=
  (slabEnvs A a.sizeOf' e).map a.at'

theorem length_slabList (a : SA α) (A : List String) (e : String → Nat) :
    (slabList a A e).length = (A.map a.sizeOf').prod := by
  unfold slabList slabEnvs
  simp [ND.ndIndices_eq_map_unravel]

theorem slabList_eq (a : SA α) (A : List String) (e : String → Nat) :
    slabList a A e = (List.range (A.map a.sizeOf').prod).map
      (fun k => a.at' (slabEnv A (ND.unravel (A.map a.sizeOf') k) e)) := by
  unfold slabList slabEnvs
  rw [ND.ndIndices_eq_map_unravel, List.map_map, List.map_map]
  rfl

theorem slabList_congr {a : SA α} {A : List String} {e e' : String → Nat}
    (h : ∀ ax ∈ a.axes, ax ∉ A → e ax = e' ax) : slabList a A e = slabList a A e' := by
  rw [slabList_eq, slabList_eq]
  apply List.map_congr_left
  intro k _
  apply at'_congr
  intro ax hax
  unfold slabEnv
  split
  · rfl
  · next hx => exact h ax hax hx

theorem slabList_getElem {a : SA α} {A : List String} {e : String → Nat} {k : Nat}
    (h : k < (slabList a A e).length) :
    (slabList a A e)[k] = a.at' (slabEnv A (ND.unravel (A.map a.sizeOf') k) e) := by
  have : k < ((List.range (A.map a.sizeOf').prod).map
      (fun k => a.at' (slabEnv A (ND.unravel (A.map a.sizeOf') k) e))).length := by
    rw [← slabList_eq]; exact h
  have h2 : (slabList a A e)[k] = ((List.range (A.map a.sizeOf').prod).map
      (fun k => a.at' (slabEnv A (ND.unravel (A.map a.sizeOf') k) e)))[k] := by
    congr 1
    exact slabList_eq a A e
  rw [h2]
  simp

/-- The lines of the array with combined axes. -/
theorem combined_line {a : SA α} (ha : a.WF) {A : List String} (hA : A.Nodup) (hAs : A ⊆ a.axes)
    {new : String} (hnew : new ∉ a.axes.filter (· ∉ A))
    (hpos : ∀ ax ∈ a.axes, ax ∉ A → get? a.shape ax ≠ some 0) :
    ∃ r, a.combineAxes (some A) (some new) = .ok r ∧ r.WF ∧
      r.axes = a.axes.filter (· ∉ A) ++ [new] ∧ r.sizeOf' new = (A.map a.sizeOf').prod ∧
      (∀ ax, ax ∈ a.axes → ax ∉ A → get? r.shape ax = get? a.shape ax) ∧
      ∀ e, (∀ ax ∈ a.axes, ax ∉ A → e ax < a.sizeOf' ax) →
        (List.range (r.sizeOf' new)).map (fun k => r.at' (Function.update e new k)) = slabList a A e := by
  obtain ⟨r, h1, h2, h3, h4, h5, h6⟩ := C11_combine_axes_partial a ha A hA hAs new hnew hpos
  have hs : r.sizeOf' new = (A.map a.sizeOf').prod := by
    unfold sizeOf'; rw [h4]; rfl
  refine ⟨r, h1, h2, h3, hs, h5, ?_⟩
  intro e he
  rw [slabList_eq, hs]
  apply List.map_congr_left
  intro k hk
  have hk' : k < (A.map a.sizeOf').prod := by simpa using hk
  rw [h6]
  · apply at'_congr
    intro ax hax
    unfold splitIndex slabEnv
    by_cases hx : ax ∈ A
    · rw [if_pos hx, if_pos hx, Function.update_self]; rfl
    · rw [if_neg hx, if_neg hx, Function.update_of_ne]
      intro h
      subst h
      exact hnew (by simp [hax, hx])
  · intro ax n hn
    by_cases hx : ax = new
    · subst hx
      rw [h4] at hn
      injection hn with hn
      rw [Function.update_self, ← hn]
      exact hk'
    · rw [Function.update_of_ne hx]
      have hm := mem_keys_of_get? hn
      rw [keys_shape h2, h3] at hm
      simp [hx] at hm
      rw [h5 ax hm.1 hm.2] at hn
      have := he ax hm.1 hm.2
      simpa [sizeOf', hn] using this

end SA
end NA
