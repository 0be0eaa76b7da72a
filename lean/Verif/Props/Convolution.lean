import Verif.Scalar.Convolve
import Verif.Props.Kernels
import Verif.Vector.Convolve
import Verif.Props.VectorReduce
import Verif.Props.UncertainStructure

/-!
# Convolution (C95)

Specification: the convolution of a named array takes, for each index along the axes which are not convolved, the image of the
array, the kernel and the mask at this index.
-/

namespace NA
open Dict
open SA (FitsIn InRange)
variable {α β γ κ : Type}
namespace SA

theorem imageB_named {S : Shape} (hS : Dict.WF S) {A : List String} (hA : A ⊆ keys S) {a : SA γ} (ha : a.WF) {v : ND γ}
    (hv : a.aligned (keys S) = .ok v) (T : Shape) (sizes : List Nat) (hsz : sizes = A.map (fun ax => (get? T ax).getD 0)) (e : String → Nat) :
    IsImage A T a.atB e (ND.imageB (A.map (keys S).idxOf) sizes v ((keys S).map e)) := by
  refine ⟨hsz, fun ks _ => ?_⟩
  show v.get (ND.clipIdx v.shape (ND.putAt ((keys S).map e) (A.map (keys S).idxOf) ks)) = _
  rw [← map_putNamed hS hA]
  exact aligned_clip ha hS hv _

theorem withOnes_named {S T : Shape} (hS : Dict.WF S) {A : List String} (hT : Dict.WF T) :
    ND.withOnes (A.map (keys S).idxOf) (posShape (keys S) T) = posShape (keys S) (orthogonal T A) := by
  unfold ND.withOnes
  apply List.ext_getElem
  · simp [posShape]
  · intro i h1 h2
    have hi : i < (keys S).length := by simpa [posShape] using h1
    have hidx : (keys S).idxOf (keys S)[i] = i := List.Nodup.idxOf_getElem hS i hi
    have hmem : i ∈ A.map (keys S).idxOf ↔ (keys S)[i] ∈ A := by
      constructor
      · intro h
        obtain ⟨x, hx, hxi⟩ := List.mem_map.1 h
        have : (keys S)[i] = x := by
          subst hxi
          exact List.getElem_idxOf _
        rw [this]
        exact hx
      · intro h
        exact List.mem_map.2 ⟨_, h, hidx⟩
    simp only [List.getElem_map, List.getElem_range, posShape, hmem, get?_orthogonal hT A]
    by_cases h : (keys S)[i] ∈ A
    · simp [h]
    · simp [h, List.getElem?_eq_getElem hi]

/-- **C95** (scalars). Each element of `na.convolve(array, kernel, axis, where)` is an element of the convolution of the image of the array,
the kernel and the mask with the same index along the axes which are not convolved; the result has the broadcast shape. -/
theorem C95_convolve (conv : ND α → ND κ → ND Bool → ND β) (array : SA α) (kernel : SA κ) (axis : AxisArg) (wh : SA Bool)
    (ha : array.WF) (hk : kernel.WF) (hw : wh.WF) (A : List String) (hA : A = axis.names kernel.axes) (hn : A.Nodup)
    (h1 : A ⊆ array.axes) (h2 : A ⊆ kernel.axes) (S : Shape)
    (hS : broadcastShapes [array.shape, kernel.shape.filter (fun p => p.1 ∉ A), wh.shape] = .ok S) :
    ∃ r, convolve conv array kernel axis wh = .ok r ∧ r.WF ∧ r.shape = S ∧
      ∀ e, ∃ a k w, r.at' e = (conv a k w).get (A.map e) ∧ IsImage A S array.atB e a ∧ IsImage A kernel.shape kernel.atB e k ∧
        IsImage A S wh.atB e w := by
  have hs1 := wf_shape ha
  have hs2 := wf_shape hk
  have hs3 := wf_shape hw
  have hka := keys_shape ha
  have hkk := keys_shape hk
  have hkw := keys_shape hw
  have hS' : broadcastShapes [array.shape, orthogonal kernel.shape A, wh.shape] = .ok S := hS
  have hss : ∀ u ∈ [array.shape, orthogonal kernel.shape A, wh.shape], Dict.WF u := by simp [hs1, hs3, wf_orthogonal hs2]
  have hSw := (broadcastShapes_joinOf hss hS').1
  have hkS : ∀ x, x ∈ keys S ↔ x ∈ array.axes ∨ (x ∈ kernel.axes ∧ x ∉ A) ∨ x ∈ wh.axes := by
    intro x
    rw [(C01_broadcast_shapes_ok _ hss S hS').2.1 x]
    simp [mem_keys_orthogonal, hka, hkk, hkw]
  have hAS : A ⊆ keys S := fun x hx => (hkS x).2 (.inl (h1 hx))
  obtain ⟨a, ea⟩ := aligned_isOk ha hSw (fun x hx => (hkS x).2 (.inl hx))
  obtain ⟨k, ek⟩ := aligned_isOk hk hSw (fun x hx => by
    by_cases h : x ∈ A
    · exact hAS h
    · exact (hkS x).2 (.inr (.inl ⟨hx, h⟩)))
  obtain ⟨w, ew⟩ := aligned_isOk hw hSw (fun x hx => (hkS x).2 (.inr (.inr hx)))
  have sa : a.shape = posShape (keys S) array.shape := (aligned_ok ha hSw ea).2.1
  have sk : k.shape = posShape (keys S) kernel.shape := (aligned_ok hk hSw ek).2.1
  have sw : w.shape = posShape (keys S) wh.shape := (aligned_ok hw hSw ew).2.1
  have hidx : (A.map (keys S).idxOf).Nodup := by
    apply List.Nodup.map_on _ hn
    intro x hx y _ hxy
    have := List.getElem_idxOf (List.idxOf_lt_length_of_mem (hAS hx))
    have h' := List.getElem_idxOf (List.idxOf_lt_length_of_mem (hAS (by assumption : y ∈ A)))
    rw [← this, ← h']
    simp only [hxy]
  have hb : ND.bshapes [a.shape, ND.withOnes (A.map (keys S).idxOf) k.shape, w.shape] = .ok (values S) := by
    rw [sa, sk, sw, withOnes_named hSw hs2]
    exact bshapes_posShape hss hS'
  have hsizes : (A.map (keys S).idxOf).map ((values S).getD · 0) = A.map (fun ax => (get? S ax).getD 0) := by
    rw [List.map_map]
    apply List.map_congr_left
    intro x hx
    have hlt := List.idxOf_lt_length_of_mem (hAS hx)
    show (values S).getD ((keys S).idxOf x) 0 = _
    rw [← posShape_keys hSw]
    unfold posShape
    rw [List.getD_eq_getElem _ _ (by simpa using hlt), List.getElem_map, List.getElem_idxOf]
    obtain ⟨n, hn⟩ := exists_get?_of_mem (hAS hx)
    simp [hn]
  have hsizesK : (A.map (keys S).idxOf).map (k.shape.getD · 0) = A.map (fun ax => (get? kernel.shape ax).getD 0) := by
    rw [List.map_map, sk]
    apply List.map_congr_left
    intro x hx
    have hlt := List.idxOf_lt_length_of_mem (hAS hx)
    show (posShape (keys S) kernel.shape).getD ((keys S).idxOf x) 0 = _
    unfold posShape
    rw [List.getD_eq_getElem _ _ (by simpa using hlt), List.getElem_map, List.getElem_idxOf]
    obtain ⟨n, hn⟩ := exists_get?_of_mem (d := kernel.shape) (x := x) (by rw [hkk]; exact h2 hx)
    simp [hn]
  have hpos : ∀ e : String → Nat, (A.map (keys S).idxOf).map (((keys S).map e).getD · 0) = A.map e := by
    intro e
    rw [List.map_map]
    apply List.map_congr_left
    intro x hx
    have hlt := List.idxOf_lt_length_of_mem (hAS hx)
    show ((keys S).map e).getD ((keys S).idxOf x) 0 = _
    rw [List.getD_eq_getElem _ _ (by simpa using hlt), List.getElem_map, List.getElem_idxOf]
  obtain ⟨nd, hnd⟩ : ∃ nd, nd = (⟨values S, fun i => (conv (ND.imageB (A.map (keys S).idxOf) ((A.map (keys S).idxOf).map ((values S).getD · 0)) a i)
      (ND.imageB (A.map (keys S).idxOf) ((A.map (keys S).idxOf).map (k.shape.getD · 0)) k i)
      (ND.imageB (A.map (keys S).idxOf) ((A.map (keys S).idxOf).map ((values S).getD · 0)) w i)).get
        ((A.map (keys S).idxOf).map (i.getD · 0))⟩ : ND β) := ⟨_, rfl⟩
  have hconv : ND.convolve conv a k (A.map (keys S).idxOf) w = .ok nd := by
    unfold ND.convolve
    rw [if_pos hidx, hb, hnd]
    rfl
  have hmk := mk?_of_wf (nd := nd) (axes := keys S) (by rw [hnd]; simp [ND.ndim, values, keys]) hSw
  refine ⟨⟨keys S, nd⟩, ?_, (mk?_ok hmk).2, ?_, fun e => ?_⟩
  · unfold convolve
    rw [hkk, ← hA, hka]
    simp only [h1, h2, not_true_eq_false, if_false, bind, Except.bind]
    rw [hS']
    simp only []
    rw [ea, ek, ew]
    simp only []
    rw [hconv]
    exact hmk
  · exact shape_of_mk hSw (by rw [hnd])
  · refine ⟨_, _, _, ?_, imageB_named hSw hAS ha ea S _ hsizes e, imageB_named hSw hAS hk ek kernel.shape _ hsizesK e,
      imageB_named hSw hAS hw ew S _ hsizes e⟩
    show nd.get ((keys S).map e) = _
    rw [hnd]
    simp only [hpos]

/-- **C95** (errors). Axes which the array or the kernel does not have, axes given twice and shapes which clash are a `ValueError`. -/
theorem C95_convolve_error (conv : ND α → ND κ → ND Bool → ND β) (array : SA α) (kernel : SA κ) (axis : AxisArg) (wh : SA Bool)
    (ha : array.WF) (hk : kernel.WF) (hw : wh.WF) (A : List String) (hA : A = axis.names kernel.axes)
    (h : ¬ A ⊆ array.axes ∨ ¬ A ⊆ kernel.axes ∨ ¬ A.Nodup ∨ Clash [array.shape, kernel.shape.filter (fun p => p.1 ∉ A), wh.shape]) :
    convolve conv array kernel axis wh = .error .valueError := by
  have hs1 := wf_shape ha
  have hs2 := wf_shape hk
  have hs3 := wf_shape hw
  have hka := keys_shape ha
  have hkk := keys_shape hk
  have hkw := keys_shape hw
  have hss : ∀ u ∈ [array.shape, orthogonal kernel.shape A, wh.shape], Dict.WF u := by simp [hs1, hs3, wf_orthogonal hs2]
  unfold convolve
  rw [hkk, ← hA, hka]
  simp only [bind, Except.bind]
  by_cases h1 : A ⊆ array.axes
  swap
  · simp [h1]
  by_cases h2 : A ⊆ kernel.axes
  swap
  · simp [h1, h2]
  simp only [h1, h2, not_true_eq_false, if_false]
  cases hS : broadcastShapes [array.shape, orthogonal kernel.shape A, wh.shape] with
  | error er => rw [C01_broadcast_shapes_error_kind _ hss er hS]
  | ok S =>
    rcases h with h | h | h | h
    · exact absurd h1 h
    · exact absurd h2 h
    · have hSw := (broadcastShapes_joinOf hss hS).1
      have hkS : ∀ x, x ∈ keys S ↔ x ∈ array.axes ∨ (x ∈ kernel.axes ∧ x ∉ A) ∨ x ∈ wh.axes := by
        intro x
        rw [(C01_broadcast_shapes_ok _ hss S hS).2.1 x]
        simp [mem_keys_orthogonal, hka, hkk, hkw]
      have hAS : A ⊆ keys S := fun x hx => (hkS x).2 (.inl (h1 hx))
      obtain ⟨a, ea⟩ := aligned_isOk ha hSw (fun x hx => (hkS x).2 (.inl hx))
      obtain ⟨k, ek⟩ := aligned_isOk hk hSw (fun x hx => by
        by_cases h : x ∈ A
        · exact hAS h
        · exact (hkS x).2 (.inr (.inl ⟨hx, h⟩)))
      obtain ⟨w, ew⟩ := aligned_isOk hw hSw (fun x hx => (hkS x).2 (.inr (.inr hx)))
      simp only []
      rw [ea, ek, ew]
      simp only []
      unfold ND.convolve
      rw [if_neg]
      intro hnd
      exact h (List.Nodup.of_map _ hnd)
    · have h' : Clash [array.shape, orthogonal kernel.shape A, wh.shape] := h
      rw [bs_clash hss h'] at hS
      cases hS

end SA

/-- The sizes of the given axes. -/
def sizesFor (S : Shape) (A : List String) : Shape := A.map (fun ax => (ax, (get? S ax).getD 0))

theorem keys_sizesFor (S : Shape) (A : List String) : keys (sizesFor S A) = A := by simp [sizesFor, keys, Function.comp_def]

theorem get?_sizesFor {S : Shape} {A : List String} (hA : A ⊆ keys S) (ax : String) :
    get? (sizesFor S A) ax = if ax ∈ A then get? S ax else none := by
  induction A with
  | nil => simp [sizesFor, get?_nil]
  | cons a A ih =>
    have h1 : sizesFor S (a :: A) = (a, (get? S a).getD 0) :: sizesFor S A := rfl
    rw [h1, get?_cons, ih (fun x hx => hA (List.mem_cons_of_mem _ hx))]
    obtain ⟨n, hn⟩ := exists_get?_of_mem (hA (List.mem_cons_self ..))
    by_cases h : a = ax
    · subst h
      simp [hn]
    · have h' : ax ≠ a := fun h' => h h'.symm
      simp [h, h']

theorem pickAxes_ok {S : Shape} {A : List String} (hn : A.Nodup) (hA : A ⊆ keys S) : pickAxes S A = .ok (sizesFor S A) := by
  have key : ∀ (l : List String) (d : Shape), (∀ x ∈ l, x ∉ keys d) → l.Nodup → l ⊆ keys S →
      l.foldlM (fun d ax => match get? S ax with
        | some n => .ok (d.set ax n)
        | none => .error .keyError) d = (.ok (d ++ sizesFor S l) : R Shape) := by
    intro l
    induction l with
    | nil => intro d _ _ _; simp [sizesFor]; rfl
    | cons x l ih =>
      intro d h1 h2 h3
      obtain ⟨n, hx⟩ := exists_get?_of_mem (h3 (List.mem_cons_self ..))
      rw [List.foldlM_cons, hx]
      show List.foldlM _ (d.set x n) l = _
      have hset : d.set x n = d ++ [(x, n)] := set_of_not_mem (h1 x (by simp))
      rw [hset, ih (d ++ [(x, n)])]
      · simp [sizesFor, hx]
      · intro y hy
        have hyx : y ≠ x := fun h => (List.nodup_cons.1 h2).1 (h ▸ hy)
        have := h1 y (by simp [hy])
        simp only [keys, List.map_append, List.mem_append, List.map_cons, List.map_nil, List.mem_singleton, not_or]
        exact ⟨this, hyx⟩
      · exact (List.nodup_cons.1 h2).2
      · exact fun y hy => h3 (List.mem_cons_of_mem _ hy)
  have := key A [] (by simp [keys]) hn hA
  rw [List.nil_append] at this
  exact this

theorem pickAxes_subset {S : Shape} {A : List String} (hA : A ⊆ keys S) : ∃ d, pickAxes S A = .ok d := by
  have key : ∀ (l : List String) (d : Shape), l ⊆ keys S →
      ∃ d', l.foldlM (fun d ax => match get? S ax with
        | some n => .ok (d.set ax n)
        | none => .error .keyError) d = (.ok d' : R Shape) := by
    intro l
    induction l with
    | nil => intro d _; exact ⟨d, rfl⟩
    | cons x l ih =>
      intro d h
      obtain ⟨n, hn⟩ := exists_get?_of_mem (h (List.mem_cons_self ..))
      obtain ⟨d', hd⟩ := ih (d.set x n) (fun y hy => h (by simp [hy]))
      refine ⟨d', ?_⟩
      rw [List.foldlM_cons, hn]
      exact hd
  exact key A [] hA


theorem pickAxes_error {S : Shape} {A : List String} (hA : ¬ A ⊆ keys S) : pickAxes S A = .error .keyError := by
  have key : ∀ (l : List String) (d : Shape), ¬ l ⊆ keys S →
      l.foldlM (fun d ax => match get? S ax with
        | some n => .ok (d.set ax n)
        | none => .error .keyError) d = (.error .keyError : R Shape) := by
    intro l
    induction l with
    | nil => intro d h; exact absurd (List.nil_subset _) h
    | cons x l ih =>
      intro d h
      rw [List.foldlM_cons]
      cases hx : get? S x with
      | none => rfl
      | some n =>
        show List.foldlM _ (d.set x n) l = _
        apply ih
        intro h'
        apply h
        intro y hy
        rcases List.mem_cons.1 hy with rfl | hy
        · exact mem_keys_of_get? hx
        · exact h' hy
  exact key A [] hA

namespace SA

/-- Broadcasting along the given axes only. -/
theorem broadcast_sizes {a : SA γ} (ha : a.WF) {P : Shape} {A : List String} (hn : A.Nodup) (hA : A ⊆ keys P)
    (h : ∀ ax ∈ A, ∀ n, get? a.shape ax = some n → n = 1 ∨ get? P ax = some n) :
    ∃ b, a.broadcastTo (sizesFor P A) true = .ok b ∧ b.WF ∧ (∀ ax, get? b.shape ax = if ax ∈ A then get? P ax else get? a.shape ax) ∧
      (∀ e, b.atB e = a.atB e) ∧ (∀ x, x ∈ b.axes ↔ x ∈ a.axes ∨ x ∈ A) := by
  have hw := wf_shape ha
  have hsw : Dict.WF (sizesFor P A) := by unfold Dict.WF; rw [keys_sizesFor]; exact hn
  have hss : ∀ u ∈ [a.shape, sizesFor P A], Dict.WF u := by simp [hw, hsw]
  obtain ⟨s, b, b1, b2, b3, b4, b5⟩ | ⟨hc, _⟩ := C10_broadcast_to_append a ha (sizesFor P A) hsw
  · have hg : ∀ ax, get? b.shape ax = if ax ∈ A then get? P ax else get? a.shape ax := by
      intro ax
      rw [b4]
      have hj := (broadcastShapes_joinOf hss b1).2 ax
      simp only [sizesOf, List.filterMap_cons, List.filterMap_nil, get?_sizesFor hA] at hj
      by_cases hax : ax ∈ A
      · simp only [hax, if_true] at hj ⊢
        obtain ⟨p, hp⟩ := exists_get?_of_mem (hA hax)
        rw [hp] at hj ⊢
        cases hm : get? a.shape ax with
        | none =>
          simp only [hm] at hj
          cases hsx : get? s ax with
          | none => rw [hsx] at hj; simp [JoinOf] at hj
          | some n => rw [hsx] at hj; simp [JoinOf] at hj; rw [hj.1]
        | some m =>
          simp only [hm] at hj
          have h' := h ax hax m hm
          rw [hp] at h'
          cases hsx : get? s ax with
          | none => rw [hsx] at hj; simp [JoinOf] at hj
          | some n =>
            rw [hsx] at hj
            simp [JoinOf] at hj h'
            congr 1
            omega
      · simp only [hax, if_false] at hj ⊢
        cases hm : get? a.shape ax with
        | none =>
          simp only [hm] at hj
          cases hsx : get? s ax with
          | none => rfl
          | some n => rw [hsx] at hj; simp [JoinOf] at hj
        | some m =>
          simp only [hm] at hj
          cases hsx : get? s ax with
          | none => rw [hsx] at hj; simp [JoinOf] at hj
          | some n => rw [hsx] at hj; simp [JoinOf] at hj; rw [hj.1]
    refine ⟨b, b2, b3, hg, ?_, ?_⟩
    · apply Comp.atB_of_broadcast ha _ b5
      intro ax n hax
      rw [hg]
      by_cases hA' : ax ∈ A
      · simp only [hA', if_true]
        obtain ⟨p, hp⟩ := exists_get?_of_mem (hA hA')
        refine ⟨p, hp, ?_⟩
        rcases h ax hA' n hax with h | h
        · exact .inr h
        · rw [h] at hp; exact .inl (by simpa using hp)
      · simp only [hA', if_false]
        exact ⟨n, hax, .inl rfl⟩
    · intro x
      rw [← keys_shape b3, b4, (C01_broadcast_shapes_ok _ hss s b1).2.1 x]
      simp [keys_sizesFor, keys_shape ha]
  · exfalso
    obtain ⟨ax, m, n, h1, h2, h5, h3, h4⟩ := hc
    obtain ⟨u, hu, hu'⟩ := h1
    obtain ⟨v, hv, hv'⟩ := h2
    have hcase : ∀ w ∈ [a.shape, sizesFor P A], ∀ k, get? w ax = some k → k ≠ 1 → (get? a.shape ax = some k ∨ (ax ∈ A ∧ get? P ax = some k)) := by
      intro w hw k hk _
      simp only [List.mem_cons, List.not_mem_nil, or_false] at hw
      rcases hw with rfl | rfl
      · exact .inl hk
      · rw [get?_sizesFor hA] at hk
        by_cases hax : ax ∈ A
        · simp only [hax, if_true] at hk; exact .inr ⟨hax, hk⟩
        · simp [hax] at hk
    have c1 := hcase u hu m hu' h3
    have c2 := hcase v hv n hv' h4
    rcases c1 with c1 | ⟨a1, c1⟩ <;> rcases c2 with c2 | ⟨a2, c2⟩
    · rw [c1] at c2; simp at c2; omega
    · rcases h ax a2 m c1 with h | h
      · omega
      · rw [h] at c2; simp at c2; omega
    · rcases h ax a1 n c2 with h | h
      · omega
      · rw [h] at c1; simp at c1; omega
    · rw [c1] at c2; simp at c2; omega

end SA
namespace SA

theorem convolvePart_ok (conv : ND α → ND κ → ND Bool → ND β) (P K : Shape) (axis : AxisArg) (array : SA α) (kernel : SA κ) (wh : SA Bool)
    (ha : array.WF) (hk : kernel.WF) (hw : wh.WF) (A : List String) (hA : ∀ d, axis.names d = A) (hn : A.Nodup)
    (hAP : A ⊆ keys P) (hAK : A ⊆ keys K)
    (h1 : ∀ ax ∈ A, ∀ n, get? array.shape ax = some n → n = 1 ∨ get? P ax = some n)
    (h2 : ∀ ax ∈ A, ∀ n, get? kernel.shape ax = some n → n = 1 ∨ get? K ax = some n)
    (h3 : ∀ ax ∈ A, ∀ n, get? wh.shape ax = some n → n = 1 ∨ get? P ax = some n)
    (T : Shape) (hT : broadcastShapes [array.shape, kernel.shape.filter (fun p => p.1 ∉ A), wh.shape] = .ok T) :
    ∃ r, convolvePart conv (sizesFor P A) (sizesFor K A) axis array kernel wh = .ok r ∧ r.WF ∧
      (∀ ax, get? r.shape ax = if ax ∈ A then get? P ax else get? T ax) ∧
      ∀ e, ∃ a k w, r.at' e = (conv a k w).get (A.map e) ∧ IsImage A P array.atB e a ∧ IsImage A K kernel.atB e k ∧
        IsImage A P wh.atB e w := by
  obtain ⟨a, a1, a2, a3, a4, a5⟩ := broadcast_sizes ha hn hAP h1
  obtain ⟨k, k1, k2, k3, k4, k5⟩ := broadcast_sizes hk hn hAK h2
  obtain ⟨w, w1, w2, w3, w4, w5⟩ := broadcast_sizes hw hn hAP h3
  have hTss : ∀ u ∈ [array.shape, kernel.shape.filter (fun p => p.1 ∉ A), wh.shape], Dict.WF u := by
    simp [wf_shape ha, wf_filter (wf_shape hk), wf_shape hw]
  have hss : ∀ u ∈ [a.shape, k.shape.filter (fun p => p.1 ∉ A), w.shape], Dict.WF u := by
    simp [wf_shape a2, wf_filter (wf_shape k2), wf_shape w2]
  have hsk : ∀ ax, get? (k.shape.filter (fun p => p.1 ∉ A)) ax = if ax ∈ A then none else get? kernel.shape ax := by
    intro ax
    rw [show k.shape.filter (fun p => decide (p.1 ∉ A)) = orthogonal k.shape A from rfl, get?_orthogonal (wf_shape k2) A ax, k3]
    by_cases h : ax ∈ A <;> simp [h]
  have hsk' : ∀ ax, get? (kernel.shape.filter (fun p => p.1 ∉ A)) ax = if ax ∈ A then none else get? kernel.shape ax := by
    intro ax
    rw [show kernel.shape.filter (fun p => decide (p.1 ∉ A)) = orthogonal kernel.shape A from rfl, get?_orthogonal (wf_shape hk) A ax]
  have hsz : ∀ ax, ax ∉ A → sizesOf [a.shape, k.shape.filter (fun p => p.1 ∉ A), w.shape] ax =
      sizesOf [array.shape, kernel.shape.filter (fun p => p.1 ∉ A), wh.shape] ax := by
    intro ax hax
    simp only [sizesOf, List.filterMap_cons, List.filterMap_nil, a3, w3, hsk, hsk', hax, if_false]
  have hszA : ∀ ax ∈ A, ∀ p, get? P ax = some p → sizesOf [a.shape, k.shape.filter (fun p => p.1 ∉ A), w.shape] ax = [p, p] := by
    intro ax hax p hp
    simp only [sizesOf, List.filterMap_cons, List.filterMap_nil, a3, w3, hsk, hax, if_true, hp]
  cases hS : broadcastShapes [a.shape, k.shape.filter (fun p => p.1 ∉ A), w.shape] with
  | error er =>
    exfalso
    obtain ⟨ax, m, n, g1, g2, g3, g4, g5⟩ := (C01_broadcast_shapes_error_iff _ hss).1 ⟨er, hS⟩
    rw [hasSize_iff] at g1 g2
    by_cases hax : ax ∈ A
    · obtain ⟨p, hp⟩ := exists_get?_of_mem (hAP hax)
      rw [hszA ax hax p hp] at g1 g2
      simp at g1 g2
      omega
    · rw [hsz ax hax, ← hasSize_iff] at g1 g2
      obtain ⟨er', her'⟩ := (C01_broadcast_shapes_error_iff _ hTss).2 ⟨ax, m, n, g1, g2, g3, g4, g5⟩
      rw [hT] at her'
      cases her'
  | ok S =>
    have hgS : ∀ ax, get? S ax = if ax ∈ A then get? P ax else get? T ax := by
      intro ax
      have hj := (broadcastShapes_joinOf hss hS).2 ax
      by_cases hax : ax ∈ A
      · simp only [hax, if_true]
        obtain ⟨p, hp⟩ := exists_get?_of_mem (hAP hax)
        rw [hszA ax hax p hp] at hj
        rw [hp]
        cases hsx : get? S ax with
        | none => rw [hsx] at hj; simp [JoinOf] at hj
        | some n => rw [hsx] at hj; simp [JoinOf] at hj; rw [hj.1]
      · simp only [hax, if_false]
        rw [hsz ax hax] at hj
        exact joinOf_unique (fun _ => Iff.rfl) hj ((broadcastShapes_joinOf hTss hT).2 ax)
    obtain ⟨r, r1, r2, r3, r4⟩ := C95_convolve conv a k axis w a2 k2 w2 A (hA _).symm hn (fun x hx => (a5 x).2 (.inr hx))
      (fun x hx => (k5 x).2 (.inr hx)) S hS
    refine ⟨r, ?_, r2, fun ax => by rw [r3, hgS], fun e => ?_⟩
    · unfold convolvePart
      rw [a1, k1, w1]
      exact r1
    · obtain ⟨i, j, l, q1, q2, q3, q4⟩ := r4 e
      have hP : A.map (fun ax => (get? S ax).getD 0) = A.map (fun ax => (get? P ax).getD 0) := by
        apply List.map_congr_left
        intro ax hax
        rw [hgS, if_pos hax]
      have hK : A.map (fun ax => (get? k.shape ax).getD 0) = A.map (fun ax => (get? K ax).getD 0) := by
        apply List.map_congr_left
        intro ax hax
        rw [k3, if_pos hax]
      exact ⟨i, j, l, q1, ⟨q2.1.trans hP, fun ks h => (q2.2 ks h).trans (a4 _)⟩, ⟨q3.1.trans hK, fun ks h => (q3.2 ks h).trans (k4 _)⟩,
        ⟨q4.1.trans hP, fun ks h => (q4.2 ks h).trans (w4 _)⟩⟩

end SA

namespace UA

/-- An axis argument which is not a string with several characters. -/
def _root_.NA.AxisArg.Plain : AxisArg → Prop
  | .one s => s.length = 1
  | _ => True

theorem _root_.NA.AxisArg.plain_items {axis : AxisArg} (h : axis.Plain) (d : List String) :
    (axis.orElse d).items [] = axis.names d ∧ ∀ d', (axis.orElse d).names d' = axis.names d := by
  cases axis with
  | none => exact ⟨rfl, fun _ => rfl⟩
  | one s =>
    obtain ⟨c, hc⟩ := List.length_eq_one_iff.1 (h : s.toList.length = 1)
    refine ⟨?_, fun _ => rfl⟩
    show s.toList.map (fun c => String.ofList [c]) = [s]
    rw [hc, List.map_cons, List.map_nil, ← hc, String.ofList_toList]
  | many l => exact ⟨rfl, fun _ => rfl⟩

theorem shapes_of {u : UA γ} (hu : u.Valid) {s : Shape} (hs : u.shape = .ok s) : ∃ sd, Shapes u s sd := by
  rcases shape_cases hu with ⟨_, _, h⟩ | ⟨_, _, s', sd, _, _, _, _, h⟩
  · rw [hs] at h
    cases h
  · have := h.shape
    rw [hs] at this
    cases this
    exact ⟨sd, h⟩

/-- **C95** (uncertain scalars, partial). The nominal value and every sample are convolved on their own, with the nominal value and the
sample of the kernel and of the mask.  Missing: axes given as a string with several characters (`C95_uncertain_string_refuted`). -/
theorem C95_uncertain_partial (conv : ND α → ND κ → ND Bool → ND β) (array : UArg α) (kernel : UArg κ) (axis : AxisArg) (wh : UArg Bool)
    (ha : array.Ok) (hk : kernel.Ok) (hw : wh.Ok) (hra : ¬ array.Reserved) (hrk : ¬ kernel.Reserved) (hrw : ¬ wh.Reserved)
    (haxis : axis.Plain) (sa K sw : Shape) (hsa : array.shape = .ok sa) (hsk : kernel.shape = .ok K) (hsw : wh.shape = .ok sw)
    (P : Shape) (hP : broadcastShapes [sa, sw] = .ok P) (A : List String) (hA : A = axis.names (keys K)) (hn : A.Nodup)
    (hAP : A ⊆ keys P) (hAK : A ⊆ keys K) (T D : Shape)
    (hT : broadcastShapes [array.nominal.shape, kernel.nominal.shape.filter (fun p => p.1 ∉ A), wh.nominal.shape] = .ok T)
    (hD : broadcastShapes [array.distribution.shape, kernel.distribution.shape.filter (fun p => p.1 ∉ A), wh.distribution.shape] = .ok D) :
    ∃ r, convolve conv array kernel axis wh = .ok r ∧ r.Valid ∧
      (∀ ax, get? r.nominal.shape ax = if ax ∈ A then get? P ax else get? T ax) ∧
      (∀ ax, get? r.distribution.shape ax = if ax ∈ A then get? P ax else get? D ax) ∧
      (∀ e, ∃ a k w, r.nominal.at' e = (conv a k w).get (A.map e) ∧ SA.IsImage A P array.nominal.atB e a ∧
        SA.IsImage A K kernel.nominal.atB e k ∧ SA.IsImage A P wh.nominal.atB e w) ∧
      (∀ e, ∃ a k w, r.distribution.at' e = (conv a k w).get (A.map e) ∧ SA.IsImage A P array.distribution.atB e a ∧
        SA.IsImage A K kernel.distribution.atB e k ∧ SA.IsImage A P wh.distribution.atB e w) := by
  obtain ⟨na, va⟩ := norm_ok ha hra
  obtain ⟨nk, vk⟩ := norm_ok hk hrk
  obtain ⟨nw, vw⟩ := norm_ok hw hrw
  have sa' := shape_norm ha hra hsa
  have sk' := shape_norm hk hrk hsk
  have sw' := shape_norm hw hrw hsw
  obtain ⟨da, Sa⟩ := shapes_of va sa'
  obtain ⟨dk, Sk⟩ := shapes_of vk sk'
  obtain ⟨dw, Sw⟩ := shapes_of vw sw'
  have hPss : ∀ u ∈ [sa, sw], Dict.WF u := by simp [Sa.wf, Sw.wf]
  have hDP : axisD ∉ keys P := by
    rw [(C01_broadcast_shapes_ok _ hPss P hP).2.1 axisD]
    simp [Sa.noD, Sw.noD]
  have hDA : ∀ ax ∈ A, ax ≠ axisD := fun ax h h' => hDP (h' ▸ hAP h)
  have hPfit : ∀ s ∈ [sa, sw], FitsIn s P := fun s hs => SA.fitsIn_of_broadcastShapes hPss hP hs
  have fits : ∀ {u : Shape} {s : Shape}, FitsIn u s → s ∈ [sa, sw] → ∀ ax n, get? u ax = some n → n = 1 ∨ get? P ax = some n := by
    intro u s h1 h2 ax n h3
    obtain ⟨m, h4, h5⟩ := h1 ax n h3
    obtain ⟨m', h6, h7⟩ := hPfit s h2 ax m h4
    by_cases h : n = 1
    · exact .inl h
    · right
      rw [h6]
      congr 1
      omega
  have dfits : ∀ {γ : Type} {u : UA γ} {s sd : Shape}, Shapes u s sd → s ∈ [sa, sw] → ∀ ax ∈ A, ∀ n, get? u.distribution.shape ax = some n →
      n = 1 ∨ get? P ax = some n := by
    intro γ u s sd h1 h2 ax hax n h3
    obtain ⟨m, h4, h5⟩ := h1.dist ax n h3
    rw [h1.get, if_neg (hDA ax hax)] at h4
    obtain ⟨m', h6, h7⟩ := hPfit s h2 ax m h4
    by_cases h : n = 1
    · exact .inl h
    · right
      rw [h6]
      congr 1
      omega
  obtain ⟨i1, i2⟩ := AxisArg.plain_items haxis (keys K)
  rw [← hA] at i1 i2
  obtain ⟨r, r1, r2, r3, r4⟩ := SA.convolvePart_ok conv P K (axis.orElse (keys K)) array.nominal kernel.nominal wh.nominal va.1 vk.1 vw.1 A i2 hn
    hAP hAK (fun ax _ => fits Sa.nom (by simp) ax)
    (fun ax _ n h => by
      obtain ⟨m, h4, h5⟩ := Sk.nom ax n h
      rw [h4]
      rcases h5 with rfl | h5
      · exact .inr rfl
      · exact .inl h5)
    (fun ax _ => fits Sw.nom (by simp) ax) T hT
  obtain ⟨d, d1, d2, d3, d4⟩ := SA.convolvePart_ok conv P K (axis.orElse (keys K)) array.distribution kernel.distribution wh.distribution
    va.2.1 vk.2.1 vw.2.1 A i2 hn hAP hAK (dfits Sa (by simp))
    (fun ax hax n h => by
      obtain ⟨m, h4, h5⟩ := Sk.dist ax n h
      rw [Sk.get, if_neg (hDA ax hax)] at h4
      rw [h4]
      rcases h5 with rfl | h5
      · exact .inr rfl
      · exact .inl h5)
    (dfits Sw (by simp)) D hD
  have hnD : axisD ∉ r.axes := by
    rw [← SA.keys_shape r2, ← get?_eq_none, r3, if_neg (fun h => hDA _ h rfl), get?_eq_none]
    have hTss : ∀ u ∈ [array.nominal.shape, kernel.nominal.shape.filter (fun p => p.1 ∉ A), wh.nominal.shape], Dict.WF u := by
      simp [SA.wf_shape va.1, wf_filter (SA.wf_shape vk.1), SA.wf_shape vw.1]
    rw [(C01_broadcast_shapes_ok _ hTss T hT).2.1 axisD]
    have h6 := keys_filter_key kernel.nominal.shape (fun x => x ∉ A)
    simp only [List.mem_cons, List.not_mem_nil, or_false, exists_eq_or_imp, exists_eq_left, not_or]
    rw [h6]
    refine ⟨?_, ?_, ?_⟩
    · rw [SA.keys_shape va.1]; exact noD_nominal ha hra
    · intro h
      have := (List.mem_filter.1 h).1
      rw [SA.keys_shape vk.1] at this
      exact noD_nominal hk hrk this
    · rw [SA.keys_shape vw.1]; exact noD_nominal hw hrw
  have hmk : mk? r d = .ok ⟨r, d⟩ := mk?_of_valid r2 hnD
  refine ⟨⟨r, d⟩, ?_, ⟨r2, d2, hnD⟩, r3, d3, r4, d4⟩
  unfold convolve
  rw [na, nk, nw]
  simp only [bind, Except.bind]
  rw [sk', sa', sw']
  simp only []
  rw [hP]
  simp only []
  rw [i1, pickAxes_ok hn hAK, pickAxes_ok hn hAP]
  simp only []
  rw [r1, d1]
  exact hmk

end UA
namespace Comp

/-- A scalar, or a vector of the given class with the given components, all of them scalars. -/
def IsFlat (prototype : String × List String) : Comp (SA γ) → Prop
  | .leaf a => a.WF
  | .node cls cs => cls = prototype.1 ∧ Dict.keys cs = prototype.2 ∧ ∀ p ∈ cs, ∃ a, p.2 = .leaf a ∧ a.WF

/-- The component of a vector, or the scalar itself. -/
def part (k : String) : Comp (SA γ) → Option (SA γ)
  | .leaf a => some a
  | .node _ cs => match get? cs k with
    | some (.leaf a) => some a
    | _ => none

theorem spread_ok {prototype : String × List String} (hp : prototype.2.Nodup) {v : Comp (SA γ)} (hv : v.IsFlat prototype) :
    ∃ cs, v.spread prototype = .ok cs ∧ Dict.WF cs ∧ keys cs = prototype.2 ∧
      (∀ c ∈ values cs, c.WF) ∧ (∀ k ∈ prototype.2, get? cs k = v.part k) := by
  cases v with
  | leaf a =>
    have hk : keys (prototype.2.map (fun k => (k, a))) = prototype.2 := by simp [keys, Function.comp_def]
    refine ⟨prototype.2.map (fun k => (k, a)), rfl, by unfold Dict.WF; rw [hk]; exact hp, hk, ?_, ?_⟩
    · intro c hc
      simp only [values, List.map_map, List.mem_map] at hc
      obtain ⟨_, _, rfl⟩ := hc
      exact hv
    · intro k hkm
      rw [SA.get?_map_list (fun _ => a) k, if_pos hkm]
      rfl
  | node cls cs =>
    obtain ⟨h1, h2, h4⟩ := hv
    have key : ∀ (l : List (String × Comp (SA γ))), (∀ p ∈ l, ∃ a, p.2 = .leaf a ∧ a.WF) →
        ∃ m : Dict (SA γ), l.mapM (fun p => do
          let a ← scalarPart p.2
          (.ok (p.1, a) : R (String × SA γ))) = .ok m ∧ l = m.map (fun p => (p.1, .leaf p.2)) ∧ ∀ c ∈ values m, c.WF := by
      intro l
      induction l with
      | nil => intro _; exact ⟨[], rfl, rfl, by simp [values]⟩
      | cons p l ih =>
        intro h
        obtain ⟨a, ha, hw⟩ := h p (by simp)
        obtain ⟨m, m1, m2, m3⟩ := ih (fun q hq => h q (by simp [hq]))
        obtain ⟨k, c⟩ := p
        simp only at ha
        subst ha
        refine ⟨(k, a) :: m, ?_, by rw [m2]; rfl, ?_⟩
        · rw [List.mapM_cons, m1]
          rfl
        · intro c hc
          simp only [values, List.map_cons, List.mem_cons] at hc
          rcases hc with rfl | hc
          · exact hw
          · exact m3 c hc
    obtain ⟨m, m1, m2, m3⟩ := key cs h4
    have hk : keys m = Dict.keys cs := by rw [m2]; simp [keys, Function.comp_def]
    refine ⟨m, ?_, by unfold Dict.WF; rw [hk, h2]; exact hp, hk.trans h2, m3, ?_⟩
    · simp only [spread]
      rw [if_pos h1]
      exact m1
    · intro k _
      have : get? cs k = (get? m k).map .leaf := by
        rw [m2]
        exact SA.get?_map_pair m (fun _ a => Comp.leaf a) k
      simp only [part]
      rw [this]
      cases get? m k <;> rfl

theorem values_part {prototype : String × List String} {cs : Dict (SA γ)} {v : Comp (SA γ)} (h1 : Dict.WF cs) (h2 : keys cs = prototype.2)
    (h3 : ∀ k ∈ prototype.2, get? cs k = v.part k) :
    prototype.2.filterMap (fun k => (v.part k).map SA.shape) = cs.values.map SA.shape := by
  have : prototype.2.filterMap (fun k => (v.part k).map SA.shape) = prototype.2.filterMap (fun k => (get? cs k).map SA.shape) := by
    apply List.filterMap_congr
    intro k hk
    rw [h3 k hk]
  rw [this, ← h2]
  simp only [keys, values, List.filterMap_map, List.map_map]
  rw [← List.filterMap_eq_map]
  apply List.filterMap_congr
  intro p hp
  show (get? cs p.1).map SA.shape = some _
  rw [get?_of_mem h1 hp]
  rfl

/-- **C95** (vectors, partial). Each component of a vector is convolved on its own, with the same component of the kernel and the mask.
Missing: nested vectors, and axes given as a string with several characters (`C95_vector_string_refuted`). -/
theorem C95_vector_partial (conv : ND α → ND κ → ND Bool → ND β) (array : Comp (SA α)) (kernel : Comp (SA κ)) (axis : AxisArg)
    (wh : Comp (SA Bool)) (prototype : String × List String) (hp : array.classNames.or (kernel.classNames.or wh.classNames) = some prototype)
    (hnp : prototype.2.Nodup)
    (ha : array.IsFlat prototype) (hk : kernel.IsFlat prototype) (hw : wh.IsFlat prototype) (haxis : axis.Plain) (sa K sw : Shape)
    (hsa : broadcastShapes (prototype.2.filterMap (fun k => (array.part k).map SA.shape)) = .ok sa)
    (hsk : broadcastShapes (prototype.2.filterMap (fun k => (kernel.part k).map SA.shape)) = .ok K)
    (hsw : broadcastShapes (prototype.2.filterMap (fun k => (wh.part k).map SA.shape)) = .ok sw)
    (P : Shape) (hP : broadcastShapes [sa, sw] = .ok P) (A : List String) (hA : A = axis.names (keys K)) (hn : A.Nodup)
    (hAP : A ⊆ keys P) (hAK : A ⊆ keys K)
    (hT : ∀ c ∈ prototype.2, ∀ a k w, array.part c = some a → kernel.part c = some k → wh.part c = some w →
      ¬ Clash [a.shape, k.shape.filter (fun p => p.1 ∉ A), w.shape]) :
    ∃ rs, convolve conv array kernel axis wh = .ok (.node prototype.1 rs) ∧ Dict.keys rs = prototype.2 ∧
      ∀ c ∈ prototype.2, ∃ a k w r T, array.part c = some a ∧ kernel.part c = some k ∧ wh.part c = some w ∧
        broadcastShapes [a.shape, k.shape.filter (fun p => p.1 ∉ A), w.shape] = .ok T ∧
        get? rs c = some (.leaf r) ∧ r.WF ∧ (∀ ax, get? r.shape ax = if ax ∈ A then get? P ax else get? T ax) ∧
        ∀ e, ∃ i j m, r.at' e = (conv i j m).get (A.map e) ∧ SA.IsImage A P a.atB e i ∧ SA.IsImage A K k.atB e j ∧
          SA.IsImage A P w.atB e m := by
  obtain ⟨ca, a1, a2, a3, a4, a5⟩ := spread_ok hnp ha
  obtain ⟨ck, k1, k2, k3, k4, k5⟩ := spread_ok hnp hk
  obtain ⟨cw, w1, w2, w3, w4, w5⟩ := spread_ok hnp hw
  rw [values_part a2 a3 a5] at hsa
  rw [values_part k2 k3 k5] at hsk
  rw [values_part w2 w3 w5] at hsw
  have hwf : ∀ {γ : Type} (cs : Dict (SA γ)), (∀ c ∈ values cs, c.WF) → ∀ u ∈ cs.values.map SA.shape, Dict.WF u := by
    intro γ cs h u hu
    obtain ⟨c, hc, rfl⟩ := List.mem_map.1 hu
    exact SA.wf_shape (h c hc)
  have hPss : ∀ u ∈ [sa, sw], Dict.WF u := by
    simp [(broadcastShapes_joinOf (hwf ca a4) hsa).1, (broadcastShapes_joinOf (hwf cw w4) hsw).1]
  have fits : ∀ {u s : Shape}, FitsIn u s → s ∈ [sa, sw] → ∀ ax ∈ A, ∀ n, get? u ax = some n → n = 1 ∨ get? P ax = some n := by
    intro u s h1 h2 ax _ n h3
    obtain ⟨m, h4, h5⟩ := h1 ax n h3
    obtain ⟨m', h6, h7⟩ := SA.fitsIn_of_broadcastShapes hPss hP h2 ax m h4
    by_cases h : n = 1
    · exact .inl h
    · right
      rw [h6]
      congr 1
      omega
  obtain ⟨i1, i2⟩ := AxisArg.plain_items haxis (keys K)
  rw [← hA] at i1 i2
  have hget : ∀ {γ : Type} (cs : Dict (SA γ)) (v : Comp (SA γ)), keys cs = prototype.2 → (∀ k ∈ prototype.2, get? cs k = v.part k) →
      ∀ c ∈ prototype.2, ∃ a, get? cs c = some a ∧ v.part c = some a ∧ a ∈ values cs := by
    intro γ cs v h1 h2 c hc
    obtain ⟨a, h⟩ := exists_get?_of_mem (by rw [h1]; exact hc : c ∈ keys cs)
    exact ⟨a, h, by rw [← h2 c hc, h], List.mem_map.2 ⟨_, mem_of_get? h, rfl⟩⟩
  have key : ∀ q ∈ ca, ∃ y : String × Comp (SA β), (do
        let k ← componentAt ck q.1
        let w ← componentAt cw q.1
        let r ← SA.convolvePart conv (sizesFor P A) (sizesFor K A) (axis.orElse (keys K)) q.2 k w
        (.ok (q.1, Comp.leaf r) : R (String × Comp (SA β)))) = .ok y ∧ q.1 = y.1 ∧
      ∃ a k w r T, array.part q.1 = some a ∧ kernel.part q.1 = some k ∧ wh.part q.1 = some w ∧
        broadcastShapes [a.shape, k.shape.filter (fun p => p.1 ∉ A), w.shape] = .ok T ∧
        y.2 = .leaf r ∧ r.WF ∧ (∀ ax, get? r.shape ax = if ax ∈ A then get? P ax else get? T ax) ∧
        ∀ e, ∃ i j m, r.at' e = (conv i j m).get (A.map e) ∧ SA.IsImage A P a.atB e i ∧ SA.IsImage A K k.atB e j ∧
          SA.IsImage A P w.atB e m := by
    intro q hq
    have hc : q.1 ∈ prototype.2 := by rw [← a3]; exact List.mem_map.2 ⟨q, hq, rfl⟩
    obtain ⟨a, x1, x2, x3⟩ := hget ca array a3 a5 q.1 hc
    obtain ⟨k, y1, y2, y3⟩ := hget ck kernel k3 k5 q.1 hc
    obtain ⟨w, z1, z2, z3⟩ := hget cw wh w3 w5 q.1 hc
    have hqa : q.2 = a := by
      have := get?_of_mem a2 hq
      rw [x1] at this
      exact (Option.some.inj this).symm
    have hss : ∀ u ∈ [a.shape, k.shape.filter (fun p => p.1 ∉ A), w.shape], Dict.WF u := by
      simp [SA.wf_shape (a4 a x3), wf_filter (SA.wf_shape (k4 k y3)), SA.wf_shape (w4 w z3)]
    cases hTT : broadcastShapes [a.shape, k.shape.filter (fun p => p.1 ∉ A), w.shape] with
    | error er => exact absurd ((C01_broadcast_shapes_error_iff _ hss).1 ⟨er, hTT⟩) (hT q.1 hc a k w x2 y2 z2)
    | ok T =>
      obtain ⟨r, r1, r2, r3, r4⟩ := SA.convolvePart_ok conv P K (axis.orElse (keys K)) a k w (a4 a x3) (k4 k y3) (w4 w z3) A i2 hn hAP hAK
        (fits (SA.fitsIn_of_broadcastShapes (hwf ca a4) hsa (List.mem_map.2 ⟨a, x3, rfl⟩)) (by simp))
        (fun ax _ n h => by
          obtain ⟨m, h4, h5⟩ := SA.fitsIn_of_broadcastShapes (hwf ck k4) hsk (List.mem_map.2 ⟨k, y3, rfl⟩) ax n h
          rw [h4]
          rcases h5 with rfl | h5
          · exact .inr rfl
          · exact .inl h5)
        (fits (SA.fitsIn_of_broadcastShapes (hwf cw w4) hsw (List.mem_map.2 ⟨w, z3, rfl⟩)) (by simp)) T hTT
      refine ⟨(q.1, .leaf r), ?_, rfl, a, k, w, r, T, x2, y2, z2, hTT, rfl, r2, r3, r4⟩
      simp only [componentAt, y1, z1, hqa, r1, bind, Except.bind]
  obtain ⟨rs, hrs⟩ := exists_forall₂ key
  have hmap := mapM_forall₂ (List.Forall₂.imp (fun _ _ h => h.1) hrs)
  have hkeys : Dict.keys rs = prototype.2 := by
    rw [← a3]
    have : ∀ {l : Dict (SA α)} {m : List (String × Comp (SA β))}, List.Forall₂ (fun p q => p.1 = q.1) l m → Dict.keys m = keys l := by
      intro l m h
      induction h with
      | nil => rfl
      | cons h _ ih => simp only [keys, List.map_cons] at ih ⊢; rw [ih, h]
    exact this (List.Forall₂.imp (fun _ _ h => h.2.1) hrs)
  refine ⟨rs, ?_, hkeys, ?_⟩
  · unfold convolve
    rw [hp]
    simp only [a1, k1, w1, bind, Except.bind]
    rw [hsk, hsa, hsw]
    simp only []
    rw [hP]
    simp only []
    rw [i1, pickAxes_ok hn hAK, pickAxes_ok hn hAP]
    simp only []
    simp only [bind, Except.bind] at hmap
    rw [hmap]
  · intro c hc
    have h2 := get?_of_forall₂ (P := fun (k : String) (_ : SA α) (y : Comp (SA β)) =>
      ∃ a kk w r T, array.part k = some a ∧ kernel.part k = some kk ∧ wh.part k = some w ∧
        broadcastShapes [a.shape, kk.shape.filter (fun p => p.1 ∉ A), w.shape] = .ok T ∧
        y = .leaf r ∧ r.WF ∧ (∀ ax, get? r.shape ax = if ax ∈ A then get? P ax else get? T ax) ∧
        ∀ e, ∃ i j m, r.at' e = (conv i j m).get (A.map e) ∧ SA.IsImage A P a.atB e i ∧ SA.IsImage A K kk.atB e j ∧
          SA.IsImage A P w.atB e m) (List.Forall₂.imp (fun _ _ h => h.2) hrs) c
    rcases h2 with ⟨h, _⟩ | ⟨_, y, _, h3, a, k, w, r, T, g1, g2, g3, g4, g5, g6⟩
    · rw [get?_eq_none, a3] at h
      exact absurd hc h
    · exact ⟨a, k, w, r, T, g1, g2, g3, g4, by rw [h3, g5], g6⟩

end Comp
namespace SA

/-- The elements of an array along one axis; those of a number are the number itself. -/
def elements (a : SA α) (ax : String) : List α := (List.range ((get? a.shape ax).getD 1)).map (fun i => a.at' (fun _ => i))

theorem ndIndices_one (n : Nat) : ndIndices [n] = (List.range n).map (fun i => [i]) := by
  simp only [ndIndices, List.map_cons, List.map_nil]
  exact (List.map_eq_flatMap ..).symm

theorem toList_line {a : SA α} (ha : a.WF) {ax : String} (h : a.axes ⊆ [ax]) : a.nd.toList = a.elements ax := by
  obtain ⟨axes, ⟨s, g⟩⟩ := a
  obtain ⟨h1, h2⟩ := ha
  simp only [ND.ndim] at h1 h2 h
  match axes, s, h1 with
  | [], [], _ => rfl
  | [x], [n], _ =>
    have hx : x = ax := by simpa using h
    subst hx
    have h0 : get? (SA.shape (⟨[x], ⟨[n], g⟩⟩ : SA α)) x = some n := by simp [shape, get?_cons]
    unfold elements ND.toList
    rw [h0, ndIndices_one, List.map_map]
    rfl
  | x :: y :: l, _, _ =>
    have hx : x = ax := by simpa using h (List.mem_cons_self ..)
    have hy : y = ax := by simpa using h (by simp : y ∈ x :: y :: l)
    simp [hx, hy] at h2

/-- **C95** (lines). `np.convolve` of two arrays along one axis is the convolution of their elements along this axis. -/
theorem C95_line (conv : List α → List α → List α) (a v : SA α) (ha : a.WF) (hv : v.WF) (ax : String) (n : Nat)
    (hS : broadcastShapes [a.shape, v.shape] = .ok [(ax, n)]) (h1 : a.elements ax ≠ []) (h2 : v.elements ax ≠ []) :
    ∃ r, convolveLine conv a v = .ok r ∧ r.WF ∧ r.shape = [(ax, (conv (a.elements ax) (v.elements ax)).length)] ∧
      ∀ e, InRange r.shape e → (conv (a.elements ax) (v.elements ax))[e ax]? = some (r.at' e) := by
  have hss : ∀ u ∈ [a.shape, v.shape], Dict.WF u := by simp [wf_shape ha, wf_shape hv]
  have hk := (C01_broadcast_shapes_ok _ hss _ hS).2.1
  have sub : ∀ b ∈ [a, v], b.WF → b.axes ⊆ [ax] := by
    intro b hb hbw x hx
    have := (hk x).2 ⟨b.shape, by simp at hb ⊢; rcases hb with rfl | rfl <;> simp, by rw [keys_shape hbw]; exact hx⟩
    simpa [keys] using this
  have ta := toList_line ha (sub a (by simp) ha)
  have tv := toList_line hv (sub v (by simp) hv)
  have len : ∀ b : SA α, b.WF → b.axes ⊆ [ax] → b.nd.shape.length ≤ 1 := by
    intro b hb h
    rw [show b.nd.shape.length = b.axes.length from hb.1]
    match hax : b.axes with
    | [] => simp
    | [x] => simp
    | x :: y :: l =>
      rw [hax] at h
      have hx : x = ax := by simpa using h (List.mem_cons_self ..)
      have hy : y = ax := by simpa using h (by simp : y ∈ x :: y :: l)
      have := hb.2
      rw [hax] at this
      simp [hx, hy] at this
  obtain ⟨l, hl⟩ : ∃ l, l = conv (a.elements ax) (v.elements ax) := ⟨_, rfl⟩
  rw [← hl]
  have hmk := mk?_of_wf (nd := (⟨[l.length], fun i => l.getD (i.getD 0 0) (a.nd.get [])⟩ : ND α)) (axes := [ax]) rfl (List.nodup_singleton _)
  refine ⟨⟨[ax], _⟩, ?_, (mk?_ok hmk).2, rfl, ?_⟩
  · unfold convolveLine
    simp only [bind, Except.bind]
    rw [hS]
    simp only [List.length_cons, List.length_nil]
    rw [if_neg (by omega)]
    unfold ND.convolveLine
    rw [if_neg (by have := len a ha (sub a (by simp) ha); have := len v hv (sub v (by simp) hv); omega), ta, tv,
      if_neg (by simp [h1, h2]), ← hl]
    simp only []
    unfold ofLine
    rw [if_neg (by simp)]
    exact hmk
  · intro e he
    have hlt : e ax < l.length := he ax l.length (by simp [shape, get?_cons])
    show l[e ax]? = some (l.getD (([ax].map e).getD 0 0) (a.nd.get []))
    simp [hlt]

/-- **C95** (numbers). For two numbers the result is the number. -/
theorem C95_line_numbers (conv : List α → List α → List α) (a v : SA α) (ha : a.WF) (hv : v.WF) (h1 : a.axes = []) (h2 : v.axes = []) (x : α)
    (l : List α) (hx : conv [a.at' (fun _ => 0)] [v.at' (fun _ => 0)] = x :: l) :
    ∃ r, convolveLine conv a v = .ok r ∧ r.WF ∧ r.shape = [] ∧ ∀ e, r.at' e = x := by
  have hsa : a.shape = [] := by simp [shape, h1]
  have hsv : v.shape = [] := by simp [shape, h2]
  have hna : a.nd.shape = [] := List.eq_nil_of_length_eq_zero (by have := ha.1; rw [h1] at this; exact this)
  have hnv : v.nd.shape = [] := List.eq_nil_of_length_eq_zero (by have := hv.1; rw [h2] at this; exact this)
  have ta : a.nd.toList = [a.at' (fun _ => 0)] := by unfold ND.toList at'; rw [hna, h1]; rfl
  have tv : v.nd.toList = [v.at' (fun _ => 0)] := by unfold ND.toList at'; rw [hnv, h2]; rfl
  have hmk := mk?_of_wf (nd := (⟨[], fun _ => x⟩ : ND α)) (axes := []) rfl List.nodup_nil
  refine ⟨⟨[], _⟩, ?_, (mk?_ok hmk).2, rfl, fun _ => rfl⟩
  unfold convolveLine
  simp only [bind, Except.bind]
  rw [hsa, hsv]
  have hb : broadcastShapes [[], []] = .ok [] := rfl
  rw [hb]
  simp only [List.length_nil]
  rw [if_neg (by omega)]
  unfold ND.convolveLine
  rw [if_neg (by simp [hna, hnv]), ta, tv, if_neg (by simp)]
  simp only []
  rw [hx]
  exact hmk

/-- **C95** (errors of lines). Arrays along two axes, and lines with different lengths, neither of which is 1, are a `ValueError`. -/
theorem C95_line_error (conv : List α → List α → List α) (a v : SA α) (ha : a.WF) (hv : v.WF)
    (h : Clash [a.shape, v.shape] ∨ (∃ x ∈ a.axes ++ v.axes, ∃ y ∈ a.axes ++ v.axes, x ≠ y)) : convolveLine conv a v = .error .valueError := by
  have hss : ∀ u ∈ [a.shape, v.shape], Dict.WF u := by simp [wf_shape ha, wf_shape hv]
  unfold convolveLine
  simp only [bind, Except.bind]
  cases hS : broadcastShapes [a.shape, v.shape] with
  | error er => rw [C01_broadcast_shapes_error_kind _ hss er hS]
  | ok S =>
    simp only []
    rcases h with h | ⟨x, hx, y, hy, hxy⟩
    · rw [bs_clash hss h] at hS
      cases hS
    · rw [if_pos]
      have hk := (C01_broadcast_shapes_ok _ hss _ hS).2.1
      have mem : ∀ z ∈ a.axes ++ v.axes, z ∈ keys S := by
        intro z hz
        rw [hk z]
        rcases List.mem_append.1 hz with h | h
        · exact ⟨a.shape, by simp, by rw [keys_shape ha]; exact h⟩
        · exact ⟨v.shape, by simp, by rw [keys_shape hv]; exact h⟩
      by_contra hlen
      match S, hlen, mem with
      | [], _, mem => simpa [keys] using mem x hx
      | [p], _, mem =>
        have h1 : x = p.1 := by simpa [keys] using mem x hx
        have h2 : y = p.1 := by simpa [keys] using mem y hy
        exact hxy (h1.trans h2.symm)
      | p :: q :: l, hlen, _ => simp at hlen

/-- **C95** (empty lines). A line without elements is a `ValueError`. -/
theorem C95_line_empty (conv : List α → List α → List α) (a v : SA α) (ha : a.WF) (hv : v.WF) (ax : String)
    (h : (a.axes ⊆ [ax] ∧ a.elements ax = []) ∨ (v.axes ⊆ [ax] ∧ v.elements ax = [])) : convolveLine conv a v = .error .valueError := by
  have hss : ∀ u ∈ [a.shape, v.shape], Dict.WF u := by simp [wf_shape ha, wf_shape hv]
  unfold convolveLine
  simp only [bind, Except.bind]
  cases hS : broadcastShapes [a.shape, v.shape] with
  | error er => rw [C01_broadcast_shapes_error_kind _ hss er hS]
  | ok S =>
    simp only []
    split
    · rfl
    · unfold ND.convolveLine
      by_cases hl : a.nd.shape.length > 1 ∨ v.nd.shape.length > 1
      · rw [if_pos hl]
      · rw [if_neg hl, if_pos]
        rcases h with ⟨h1, h2⟩ | ⟨h1, h2⟩
        · left
          rw [toList_line ha h1, h2]
          rfl
        · right
          rw [toList_line hv h1, h2]
          rfl

/-- A line with four elements. -/
def exSignal : SA Int := ⟨["x"], ⟨[4], fun i => i.getD 0 0 + 1⟩⟩

/-- A line with two elements. -/
def exPair : SA Int := ⟨["x"], ⟨[2], fun i => 2 * i.getD 0 0 - 1⟩⟩

/-- The convolution of two lists. -/
def exConv : List Int → List Int → List Int
  | [], _ => []
  | x :: l, m => ((x :: l).map (fun y => y * m.headD 0)) ++ m.tail

/-- **C95** (refuted). `np.convolve` cannot convolve a line with a shorter line along the same axis, which numpy can. -/
theorem C95_line_lengths_refuted : ¬ ∀ (conv : List Int → List Int → List Int) (a v : SA Int), a.WF → v.WF → a.axes = ["x"] → v.axes = ["x"] →
    a.elements "x" ≠ [] → v.elements "x" ≠ [] → ∃ r, convolveLine conv a v = .ok r := by
  intro h
  obtain ⟨r, hr⟩ := h exConv exSignal exPair ⟨rfl, by decide⟩ ⟨rfl, by decide⟩ rfl rfl (by decide) (by decide)
  have : convolveLine exConv exSignal exPair = .error .valueError := C95_line_error _ _ _ ⟨rfl, by decide⟩ ⟨rfl, by decide⟩
    (.inl ⟨"x", 4, 2, ⟨exSignal.shape, by simp, rfl⟩, ⟨exPair.shape, by simp, rfl⟩, by decide, by decide, by decide⟩)
  rw [this] at hr
  cases hr

example : ∃ r, convolveLine exConv exSignal exSignal = .ok r ∧ r.WF ∧ r.shape = [("x", 7)] ∧
    ∀ e, InRange r.shape e → (exConv (exSignal.elements "x") (exSignal.elements "x"))[e "x"]? = some (r.at' e) :=
  C95_line exConv exSignal exSignal ⟨rfl, by decide⟩ ⟨rfl, by decide⟩ "x" 4 rfl (by decide) (by decide)

example : convolveLine exConv exSignal ⟨["x"], ⟨[0], fun _ => 0⟩⟩ = .error .valueError :=
  C95_line_empty exConv exSignal ⟨["x"], ⟨[0], fun _ => 0⟩⟩ ⟨rfl, by decide⟩ ⟨rfl, by decide⟩ "x" (.inr ⟨by decide, by decide⟩)

example : ∃ r, convolveLine exConv (scalar 3) (scalar 4) = .ok r ∧ r.WF ∧ r.shape = [] ∧ ∀ e, r.at' e = 12 :=
  C95_line_numbers exConv (scalar 3) (scalar 4) (by constructor <;> decide) (by constructor <;> decide) rfl rfl 12 [] rfl

/-- An array with images along `x` for two times. -/
def exMovie : SA Int := ⟨["time", "x"], ⟨[2, 4], fun i => 10 * i.getD 0 0 + i.getD 1 0⟩⟩

/-- One kernel for each time. -/
def exMovieKernel : SA Int := ⟨["x", "time"], ⟨[2, 2], fun i => i.getD 0 0 + 2 * i.getD 1 0 + 1⟩⟩

/-- A mask for the elements of the image. -/
def exMovieMask : SA Bool := ⟨["x"], ⟨[4], fun i => i != [1]⟩⟩

/-- A convolution with the first two elements of the kernel. -/
def exImageConv (a k : ND Int) (w : ND Bool) : ND Int :=
  ⟨a.shape, fun i => (if w.get i then a.get i else 0) * k.get [0] +
    (if i.getD 0 0 + 1 < a.shape.getD 0 0 ∧ w.get [i.getD 0 0 + 1] then a.get [i.getD 0 0 + 1] else 0) * k.get [1]⟩

example : ∃ r, convolve exImageConv exMovie exMovieKernel (.one "x") exMovieMask = .ok r ∧ r.WF ∧ r.shape = [("time", 2), ("x", 4)] ∧
    ∀ e, ∃ a k w, r.at' e = (exImageConv a k w).get (["x"].map e) ∧ IsImage ["x"] [("time", 2), ("x", 4)] exMovie.atB e a ∧
      IsImage ["x"] [("x", 2), ("time", 2)] exMovieKernel.atB e k ∧ IsImage ["x"] [("time", 2), ("x", 4)] exMovieMask.atB e w :=
  C95_convolve exImageConv exMovie exMovieKernel (.one "x") exMovieMask ⟨rfl, by decide⟩ ⟨rfl, by decide⟩ ⟨rfl, by decide⟩ ["x"] rfl
    (by decide) (by decide) (by decide) [("time", 2), ("x", 4)] rfl

/-- At `time = 1`, `x = 2`: 12 * 3 + 13 * 4. -/
example : (convolve exImageConv exMovie exMovieKernel (.one "x") exMovieMask).map (fun r => r.at' (fun ax => if ax = "x" then 2 else 1)) =
    .ok (12 * 3 + 13 * 4) := by decide +kernel

example : convolve exImageConv exMovie exMovieKernel (.one "y") exMovieMask = .error .valueError :=
  C95_convolve_error exImageConv exMovie exMovieKernel (.one "y") exMovieMask ⟨rfl, by decide⟩ ⟨rfl, by decide⟩ ⟨rfl, by decide⟩ ["y"] rfl
    (.inl (by decide))

end SA

namespace UA

/-- A measurement of the images with two samples. -/
def exMovieU : UA Int := ⟨SA.exMovie, ⟨[axisD, "x"], ⟨[2, 4], fun i => 100 * i.getD 0 0 + i.getD 1 0⟩⟩⟩

example : ∃ r, convolve SA.exImageConv (.unc exMovieU) (.plain SA.exPair) (.many ["x"]) (.plain SA.exMovieMask) = .ok r ∧ r.Valid ∧
      (∀ ax, get? r.nominal.shape ax = if ax ∈ ["x"] then get? [("time", 2), ("x", 4)] ax else get? [("time", 2), ("x", 4)] ax) ∧
      (∀ ax, get? r.distribution.shape ax = if ax ∈ ["x"] then get? [("time", 2), ("x", 4)] ax else get? [(axisD, 2), ("x", 4)] ax) ∧
      (∀ e, ∃ a k w, r.nominal.at' e = (SA.exImageConv a k w).get (["x"].map e) ∧ SA.IsImage ["x"] [("time", 2), ("x", 4)] SA.exMovie.atB e a ∧
        SA.IsImage ["x"] [("x", 2)] SA.exPair.atB e k ∧ SA.IsImage ["x"] [("time", 2), ("x", 4)] SA.exMovieMask.atB e w) ∧
      (∀ e, ∃ a k w, r.distribution.at' e = (SA.exImageConv a k w).get (["x"].map e) ∧
        SA.IsImage ["x"] [("time", 2), ("x", 4)] exMovieU.distribution.atB e a ∧
        SA.IsImage ["x"] [("x", 2)] SA.exPair.atB e k ∧ SA.IsImage ["x"] [("time", 2), ("x", 4)] SA.exMovieMask.atB e w) :=
  C95_uncertain_partial SA.exImageConv (.unc exMovieU) (.plain SA.exPair) (.many ["x"]) (.plain SA.exMovieMask)
    ⟨⟨rfl, by decide⟩, ⟨rfl, by decide⟩, by decide⟩ ⟨rfl, by decide⟩ ⟨rfl, by decide⟩ (fun h => h) (by unfold UArg.Reserved; decide) (by unfold UArg.Reserved; decide) trivial
    [("time", 2), ("x", 4)] [("x", 2)] [("x", 4)] (by rfl) (by rfl) (by rfl) [("time", 2), ("x", 4)] (by rfl) ["x"] rfl (by decide) (by decide) (by decide)
    [("time", 2), ("x", 4)] [(axisD, 2), ("x", 4)] (by rfl) (by rfl)

/-- **C95** (errors of uncertain scalars). An axis which the kernel, or the array and the mask, do not have is a `KeyError`; a string
is read as the list of its characters. -/
theorem C95_uncertain_axis_error (conv : ND α → ND κ → ND Bool → ND β) (array : UArg α) (kernel : UArg κ) (axis : AxisArg) (wh : UArg Bool)
    (ha : array.Ok) (hk : kernel.Ok) (hw : wh.Ok) (hra : ¬ array.Reserved) (hrk : ¬ kernel.Reserved) (hrw : ¬ wh.Reserved)
    (sa K sw : Shape) (hsa : array.shape = .ok sa) (hsk : kernel.shape = .ok K) (hsw : wh.shape = .ok sw)
    (P : Shape) (hP : broadcastShapes [sa, sw] = .ok P) (x : String) (hx : x ∈ axis.items (keys K)) (h : x ∉ keys K ∨ x ∉ keys P) :
    convolve conv array kernel axis wh = .error .keyError := by
  have i1 : (axis.orElse (keys K)).items [] = axis.items (keys K) := by cases axis <;> rfl
  unfold convolve
  rw [(norm_ok ha hra).1, (norm_ok hk hrk).1, (norm_ok hw hrw).1]
  simp only [bind, Except.bind]
  rw [shape_norm hk hrk hsk, shape_norm ha hra hsa, shape_norm hw hrw hsw]
  simp only []
  rw [i1, hP]
  simp only []
  have er : ∀ {S : Shape}, x ∉ keys S → pickAxes S (axis.items (keys K)) = .error .keyError := fun h => pickAxes_error (fun h' => h (h' hx))
  by_cases hK : x ∈ keys K
  · rcases h with h | h
    · exact absurd hK h
    · rw [er h]
      by_cases hn : axis.items (keys K) ⊆ keys K
      · obtain ⟨d, hd⟩ := pickAxes_subset hn
        rw [hd]
      · rw [pickAxes_error hn]
  · rw [er hK]

/-- A kernel along the time. -/
def exTimeKernel : SA Int := ⟨["time"], ⟨[2], fun i => i.getD 0 0 + 1⟩⟩

example : convolve SA.exImageConv (.unc exMovieU) (.plain SA.exPair) (.many ["x", "time"]) (.plain SA.exMovieMask) = .error .keyError :=
  C95_uncertain_axis_error SA.exImageConv (.unc exMovieU) (.plain SA.exPair) (.many ["x", "time"]) (.plain SA.exMovieMask)
    ⟨⟨rfl, by decide⟩, ⟨rfl, by decide⟩, by decide⟩ ⟨rfl, by decide⟩ ⟨rfl, by decide⟩ (fun h => h) (by unfold UArg.Reserved; decide) (by unfold UArg.Reserved; decide)
    [("time", 2), ("x", 4)] [("x", 2)] [("x", 4)] (by rfl) (by rfl) (by rfl) [("time", 2), ("x", 4)] (by rfl) "time" (by decide) (.inl (by decide))

/-- **C95** (refuted). The name of one axis can be given as a string for scalars, but for uncertain scalars the string is read as the
list of its characters. -/
theorem C95_uncertain_string_refuted :
    (∃ r, SA.convolve SA.exImageConv SA.exMovie exTimeKernel (.one "time") (SA.scalar true) = .ok r) ∧
      convolve SA.exImageConv (.unc exMovieU) (.plain exTimeKernel) (.one "time") (.plain (SA.scalar true)) = .error .keyError := by
  refine ⟨?_, ?_⟩
  · obtain ⟨r, h, _⟩ := SA.C95_convolve SA.exImageConv SA.exMovie exTimeKernel (.one "time") (SA.scalar true) ⟨rfl, by decide⟩ ⟨rfl, by decide⟩
      (by constructor <;> decide) ["time"] rfl (by decide) (by decide) (by decide) [("time", 2), ("x", 4)] (by rfl)
    exact ⟨r, h⟩
  · exact C95_uncertain_axis_error SA.exImageConv (.unc exMovieU) (.plain exTimeKernel) (.one "time") (.plain (SA.scalar true))
      ⟨⟨rfl, by decide⟩, ⟨rfl, by decide⟩, by decide⟩ ⟨rfl, by decide⟩ (by constructor <;> decide) (fun h => h) (by unfold UArg.Reserved; decide)
      (by unfold UArg.Reserved; decide)
      [("time", 2), ("x", 4)] [("time", 2)] [] (by rfl) (by rfl) (by rfl) [("time", 2), ("x", 4)] (by rfl) "t" (by decide) (.inl (by decide))

end UA

namespace Comp

/-- **C95** (errors of vectors). An axis which the kernel, or the array and the mask, do not have is a `KeyError`; a string is read as
the list of its characters. -/
theorem C95_vector_axis_error (conv : ND α → ND κ → ND Bool → ND β) (array : Comp (SA α)) (kernel : Comp (SA κ)) (axis : AxisArg)
    (wh : Comp (SA Bool)) (prototype : String × List String) (hp : array.classNames.or (kernel.classNames.or wh.classNames) = some prototype)
    (hnp : prototype.2.Nodup)
    (ha : array.IsFlat prototype) (hk : kernel.IsFlat prototype) (hw : wh.IsFlat prototype) (sa K sw : Shape)
    (hsa : broadcastShapes (prototype.2.filterMap (fun k => (array.part k).map SA.shape)) = .ok sa)
    (hsk : broadcastShapes (prototype.2.filterMap (fun k => (kernel.part k).map SA.shape)) = .ok K)
    (hsw : broadcastShapes (prototype.2.filterMap (fun k => (wh.part k).map SA.shape)) = .ok sw)
    (P : Shape) (hP : broadcastShapes [sa, sw] = .ok P) (x : String) (hx : x ∈ axis.items (keys K)) (h : x ∉ keys K ∨ x ∉ keys P) :
    convolve conv array kernel axis wh = .error .keyError := by
  obtain ⟨ca, a1, a2, a3, a4, a5⟩ := spread_ok hnp ha
  obtain ⟨ck, k1, k2, k3, k4, k5⟩ := spread_ok hnp hk
  obtain ⟨cw, w1, w2, w3, w4, w5⟩ := spread_ok hnp hw
  rw [values_part a2 a3 a5] at hsa
  rw [values_part k2 k3 k5] at hsk
  rw [values_part w2 w3 w5] at hsw
  have i1 : (axis.orElse (keys K)).items [] = axis.items (keys K) := by cases axis <;> rfl
  unfold convolve
  rw [hp]
  simp only [a1, k1, w1, bind, Except.bind]
  rw [hsk, hsa, hsw]
  simp only []
  rw [i1, hP]
  simp only []
  have er : ∀ {S : Shape}, x ∉ keys S → pickAxes S (axis.items (keys K)) = .error .keyError := fun h => pickAxes_error (fun h' => h (h' hx))
  by_cases hK : x ∈ keys K
  · rcases h with h | h
    · exact absurd hK h
    · rw [er h]
      by_cases hn : axis.items (keys K) ⊆ keys K
      · obtain ⟨d, hd⟩ := pickAxes_subset hn
        rw [hd]
      · rw [pickAxes_error hn]
  · rw [er hK]

/-- A vector of two images. -/
def exMovieV : Comp (SA Int) := .node "V" [("a", .leaf SA.exMovie), ("b", .leaf SA.exSignal)]

/-- A kernel for each component. -/
def exMovieVKernel : Comp (SA Int) := .node "V" [("a", .leaf SA.exPair), ("b", .leaf (SA.scalar 2))]

theorem flat_exMovieV : exMovieV.IsFlat ("V", ["a", "b"]) :=
  ⟨rfl, rfl, fun p hp => by
    rcases List.mem_cons.1 hp with rfl | hp
    · exact ⟨_, rfl, rfl, by decide⟩
    · rw [List.mem_singleton.1 hp]
      exact ⟨_, rfl, rfl, by decide⟩⟩

theorem flat_exMovieVKernel : exMovieVKernel.IsFlat ("V", ["a", "b"]) :=
  ⟨rfl, rfl, fun p hp => by
    rcases List.mem_cons.1 hp with rfl | hp
    · exact ⟨_, rfl, rfl, by decide⟩
    · rw [List.mem_singleton.1 hp]
      exact ⟨_, rfl, by constructor <;> decide⟩⟩

example : ∃ rs, convolve SA.exImageConv exMovieV exMovieVKernel (.one "x") (.leaf SA.exMovieMask) = .ok (.node "V" rs) ∧ Dict.keys rs = ["a", "b"] := by
  obtain ⟨rs, h1, h2, _⟩ := C95_vector_partial SA.exImageConv exMovieV exMovieVKernel (.one "x") (.leaf SA.exMovieMask) ("V", ["a", "b"]) rfl (by decide)
    flat_exMovieV flat_exMovieVKernel (⟨rfl, by decide⟩ : SA.exMovieMask.WF) (by unfold AxisArg.Plain; decide) [("time", 2), ("x", 4)] [("x", 2)] [("x", 4)]
    (by rfl) (by rfl) (by rfl) [("time", 2), ("x", 4)] (by rfl) ["x"] rfl (by decide) (by decide) (by decide) (by
      intro c hc a k w h1 h2 h3 hcl
      have hs : ∃ T, broadcastShapes [a.shape, k.shape.filter (fun p => p.1 ∉ ["x"]), w.shape] = .ok T := by
        rcases List.mem_cons.1 hc with rfl | hc
        · cases h1; cases h2; cases h3; exact ⟨[("time", 2), ("x", 4)], by rfl⟩
        · rw [List.mem_singleton.1 hc] at h1 h2 h3
          cases h1; cases h2; cases h3; exact ⟨[("x", 4)], by rfl⟩
      have hss : ∀ u ∈ [a.shape, k.shape.filter (fun p => p.1 ∉ ["x"]), w.shape], Dict.WF u := by
        rcases List.mem_cons.1 hc with rfl | hc
        · cases h1; cases h2; cases h3; unfold Dict.WF; decide
        · rw [List.mem_singleton.1 hc] at h1 h2 h3
          cases h1; cases h2; cases h3; unfold Dict.WF; decide
      obtain ⟨T, hT⟩ := hs
      rw [SA.bs_clash hss hcl] at hT
      cases hT)
  exact ⟨rs, h1, h2⟩

/-- **C95** (refuted). The name of one axis can be given as a string for scalars, but for vectors the string is read as the list of its
characters. -/
theorem C95_vector_string_refuted :
    (∃ r, SA.convolve SA.exImageConv SA.exMovie UA.exTimeKernel (.one "time") (SA.scalar true) = .ok r) ∧
      convolve SA.exImageConv exMovieV (.leaf UA.exTimeKernel) (.one "time") (.leaf (SA.scalar true)) = .error .keyError := by
  refine ⟨UA.C95_uncertain_string_refuted.1, ?_⟩
  exact C95_vector_axis_error SA.exImageConv exMovieV (.leaf UA.exTimeKernel) (.one "time") (.leaf (SA.scalar true)) ("V", ["a", "b"]) rfl (by decide)
    flat_exMovieV (⟨rfl, by decide⟩ : UA.exTimeKernel.WF) (by constructor <;> decide : (SA.scalar true).WF) [("time", 2), ("x", 4)] [("time", 2)] []
    (by rfl) (by rfl) (by rfl) [("time", 2), ("x", 4)] (by rfl) "t" (by decide) (.inl (by decide))

end Comp
end NA
