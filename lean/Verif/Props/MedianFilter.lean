import Verif.Scalar.MedianFilter
import Verif.Scalar.Lemmas
import Mathlib.Data.List.Sort

/-!
# C129: median filters
-/

namespace NA.Filter
open Dict
open SA (InRange)
variable {α : Type}

/-- Specification: the named index with another position along one axis. -/
def move (e : String → Nat) (ax : String) (j : Nat) : String → Nat := fun ax' => if ax' = ax then j else e ax'

/-- Specification: the values of `F` within a window around a named index, one axis after the other. -/
def around (F : (String → Nat) → α) (size kernel : String → Nat) : List String → (String → Nat) → List α
  | [], e => [F e]
  | ax :: axes, e => (List.range (kernel ax)).flatMap (fun (d : Nat) =>
      around F size kernel axes (move e ax (reflect (size ax) ((e ax : Int) - (kernel ax / 2 : Nat) + (d : Int)))))

theorem map_move {l : List String} {ax : String} (h : ax ∉ l) (e : String → Nat) (j : Nat) : l.map (move e ax j) = l.map e := by
  apply List.map_congr_left
  intro b hb
  unfold move
  rw [if_neg (by rintro rfl; exact h hb)]

theorem window_around (G : List Nat → α) (size kernel : String → Nat) : ∀ (l pre : List String) (e : String → Nat), (pre ++ l).Nodup →
    (window (l.map kernel) (l.map size) (l.map e)).map (fun w => G (pre.map e ++ w)) = around (fun e' => G ((pre ++ l).map e')) size kernel l e := by
  intro l
  induction l with
  | nil => intro pre e _; simp [window, around]
  | cons ax l ih =>
    intro pre e hn
    simp only [List.map_cons, window, around, List.map_flatMap]
    congr 1
    funext d
    generalize hj : reflect (size ax) ((e ax : Int) - (kernel ax / 2 : Nat) + d) = j
    have hn' : ((pre ++ [ax]) ++ l).Nodup := by simpa using hn
    have h1 : ax ∉ pre := by
      intro h
      exact (List.nodup_append.1 hn).2.2 ax h ax (by simp) rfl
    have h2 : ax ∉ l := (List.nodup_cons.1 (List.nodup_append.1 hn).2.1).1
    have := ih (pre ++ [ax]) (move e ax j) hn'
    rw [map_move h2, List.map_append, map_move h1] at this
    simp only [List.map_cons, List.map_nil, List.append_assoc, List.cons_append, List.nil_append, move, if_true] at this
    rw [List.map_map]
    exact this

/-- Specification: `v` is in the middle of the list: it is an element, at most half of the elements are smaller, and more than half of them are not
larger. -/
def IsMiddle (le : α → α → Bool) (v : α) (l : List α) : Prop :=
  v ∈ l ∧ l.countP (fun x => !le v x) ≤ l.length / 2 ∧ l.length / 2 < l.countP (fun x => le x v)

theorem isMiddle_middle {le : α → α → Bool} (ht : ∀ a b c, le a b = true → le b c = true → le a c = true) (htot : ∀ a b, (le a b || le b a) = true)
    {l : List α} (h : l ≠ []) (default : α) : IsMiddle le (middle le default l) l := by
  have hp := List.mergeSort_perm l le
  have hs := List.pairwise_mergeSort ht htot l
  have hpos : 0 < l.length := List.length_pos_iff.2 h
  have hlen : (l.mergeSort le).length = l.length := hp.length_eq
  have hk : l.length / 2 < (l.mergeSort le).length := by omega
  have hm : middle le default l = (l.mergeSort le)[l.length / 2] := by
    unfold middle; rw [List.getD_eq_getElem _ _ hk]
  rw [hm]
  generalize l.mergeSort le = s at *
  have hrefl : ∀ a, le a a = true := fun a => by simpa using htot a a
  rw [List.pairwise_iff_getElem] at hs
  refine ⟨hp.mem_iff.1 (List.getElem_mem hk), ?_, ?_⟩
  · have hsum : s.countP (fun x => !le (s[l.length / 2]) x) = (s.take (l.length / 2)).countP (fun x => !le (s[l.length / 2]) x) +
        (s.drop (l.length / 2)).countP (fun x => !le (s[l.length / 2]) x) := by
      rw [← List.countP_append, List.take_append_drop]
    rw [← hp.countP_eq, hsum]
    have h0 : (s.drop (l.length / 2)).countP (fun x => !le (s[l.length / 2]) x) = 0 := by
      rw [List.countP_eq_zero]
      intro x hx
      obtain ⟨i, hi, rfl⟩ := List.mem_iff_getElem.1 hx
      simp only [List.getElem_drop, Bool.not_eq_true', Bool.not_eq_false]
      rcases Nat.eq_zero_or_pos i with rfl | hi0
      · exact hrefl _
      · exact hs _ _ hk (by simp at hi; omega) (by omega)
    have h1 := List.countP_le_length (p := fun x => !le (s[l.length / 2]) x) (l := s.take (l.length / 2))
    rw [h0]
    simp only [List.length_take] at h1
    omega
  · rw [← hp.countP_eq]
    have h1 : (s.take (l.length / 2 + 1)).countP (fun x => le x (s[l.length / 2])) = (s.take (l.length / 2 + 1)).length := by
      rw [List.countP_eq_length]
      intro x hx
      obtain ⟨i, hi, rfl⟩ := List.mem_iff_getElem.1 hx
      simp only [List.length_take] at hi
      simp only [List.getElem_take]
      rcases Nat.lt_or_ge i (l.length / 2) with h | h
      · exact hs _ _ (by omega) hk h
      · have : i = l.length / 2 := by omega
        subst this; exact hrefl _
    have h2 : (s.take (l.length / 2 + 1)).countP (fun x => le x (s[l.length / 2])) ≤ s.countP (fun x => le x (s[l.length / 2])) :=
      (List.take_sublist _ _).countP_le
    rw [h1, List.length_take] at h2
    omega

theorem around_ne_nil (F : (String → Nat) → α) (size kernel : String → Nat) : ∀ (l : List String) (e : String → Nat), (∀ ax ∈ l, 0 < kernel ax) →
    around F size kernel l e ≠ [] := by
  intro l
  induction l with
  | nil => intro e _; simp [around]
  | cons ax l ih =>
    intro e h
    have h0 := h ax (by simp)
    intro hn
    simp only [around, List.flatMap_eq_nil_iff, List.mem_range] at hn
    exact ih _ (fun b hb => h b (by simp [hb])) (hn 0 h0)

/-- the size of an axis of an array -/
def sizeOf' (a : SA α) (ax : String) : Nat := (get? a.shape ax).getD 1
/-- the size of the window along an axis -/
def kernelOf (kernel : Dict Nat) (ax : String) : Nat := (get? kernel ax).getD 1

theorem filter_at {le : α → α → Bool} {a : SA α} (ha : a.WF) (kernel : Dict Nat) :
    ∃ r, filterMedian le a kernel = .ok r ∧ r.WF ∧ r.axes = a.axes ∧ r.shape = a.shape ∧
      ∀ e, r.at' e = middle le (a.at' e) (around a.at' (sizeOf' a) (kernelOf kernel) a.axes e) := by
  refine ⟨⟨a.axes, _⟩, SA.mk?_of_wf (by exact ha.1) ha.2, ha, rfl, rfl, fun e => ?_⟩
  have hs : a.nd.shape = a.axes.map (sizeOf' a) := by
    rw [← SA.values_shape ha, ← SA.keys_shape ha]
    unfold sizeOf' Dict.values Dict.keys
    rw [List.map_map]
    apply List.map_congr_left
    intro p hp
    simp only [Function.comp]
    rw [get?_of_mem (SA.wf_shape ha) hp]
    rfl
  change middle le (a.nd.get (a.axes.map e)) ((window (a.shape.keys.map (kernelOf kernel)) a.nd.shape (a.axes.map e)).map a.nd.get) = _
  rw [SA.keys_shape ha, hs]
  have := window_around a.nd.get (sizeOf' a) (kernelOf kernel) a.axes [] e (by simpa using ha.2)
  simp only [List.map_nil, List.nil_append] at this
  rw [show (fun w => a.nd.get w) = a.nd.get from rfl] at this
  rw [this]
  rfl

/-- **C129** (values). The filtered array has the axes and the shape of the array, and its element at every index is in the middle of the elements within the
window around it, where the axes which are not mentioned get windows of size one. -/
theorem C129_filter_median {le : α → α → Bool} (ht : ∀ a b c, le a b = true → le b c = true → le a c = true) (htot : ∀ a b, (le a b || le b a) = true)
    {a : SA α} (ha : a.WF) {kernel : Dict Nat} (hk : ∀ ax ∈ a.axes, 0 < kernelOf kernel ax) :
    ∃ r, filterMedian le a kernel = .ok r ∧ r.WF ∧ r.axes = a.axes ∧ r.shape = a.shape ∧
      ∀ e, InRange a.shape e → IsMiddle le (r.at' e) (around a.at' (sizeOf' a) (kernelOf kernel) a.axes e) := by
  obtain ⟨r, h1, h2, h3, h4, h5⟩ := filter_at (le := le) ha kernel
  refine ⟨r, h1, h2, h3, h4, fun e _ => ?_⟩
  rw [h5 e]
  exact isMiddle_middle ht htot (around_ne_nil _ _ _ _ _ hk) _

/-- Within an axis nothing is reflected. -/
theorem C129_inner {n : Nat} {j : Int} (h0 : 0 ≤ j) (h1 : j < n) : (reflect n j : Int) = j := by
  unfold reflect
  have h2 : j % ((2 * n : Nat) : Int) = j := Int.emod_eq_of_lt h0 (by omega)
  simp only [h2]
  rw [if_pos (by omega)]
  omega

/-- Before and after the axis the elements are mirrored at its ends. -/
theorem C129_mirror {n : Nat} {j : Int} (h0 : 0 ≤ j) (h1 : j < n) : (reflect n (-1 - j) : Int) = j ∧ (reflect n (n + j) : Int) = n - 1 - j := by
  unfold reflect
  have h2 : (-1 - j) % ((2 * n : Nat) : Int) = 2 * n - 1 - j := by
    rw [← Int.add_emod_right (-1 - j)]
    rw [Int.emod_eq_of_lt (by omega) (by omega)]
    omega
  have h3 : (n + j) % ((2 * n : Nat) : Int) = n + j := Int.emod_eq_of_lt (by omega) (by omega)
  simp only [h2, h3]
  constructor
  · rw [if_neg (by omega)]; omega
  · rw [if_neg (by omega)]; omega

theorem around_one (F : (String → Nat) → α) (size kernel : String → Nat) : ∀ (l : List String) (e : String → Nat), (∀ ax ∈ l, kernel ax = 1) →
    (∀ ax ∈ l, e ax < size ax) → l.Nodup → ∃ e', (∀ ax, e' ax = e ax) ∧ around F size kernel l e = [F e'] := by
  intro l
  induction l with
  | nil => intro e _ _ _; exact ⟨e, fun _ => rfl, rfl⟩
  | cons ax l ih =>
    intro e h he hn
    have hm : move e ax (reflect (size ax) ((e ax : Int) - (1 / 2 : Nat) + (0 : Nat))) = e := by
      funext b
      unfold move
      split
      · next hb =>
        subst hb
        have := C129_inner (n := size b) (j := (e b : Int) - (1 / 2 : Nat) + (0 : Nat)) (by simp) (by have := he b (by simp); simpa using this)
        simp at this ⊢
        omega
      · rfl
    obtain ⟨e', h1, h2⟩ := ih e (fun b hb => h b (by simp [hb])) (fun b hb => he b (by simp [hb])) (List.nodup_cons.1 hn).2
    refine ⟨e', h1, ?_⟩
    unfold around
    rw [h ax (by simp)]
    simp only [List.range_one, List.flatMap_cons, List.flatMap_nil, List.append_nil]
    rw [hm, h2]

/-- **C129** (windows of size one). If no axis of the array has a window larger than one, the array is unchanged; in particular axes of `shape_kernel`
which the array does not have are ignored. -/
theorem C129_identity {le : α → α → Bool} {a : SA α} (ha : a.WF) {kernel : Dict Nat} (hk : ∀ ax ∈ a.axes, kernelOf kernel ax = 1) :
    ∃ r, filterMedian le a kernel = .ok r ∧ r.axes = a.axes ∧ r.shape = a.shape ∧ ∀ e, InRange a.shape e → r.at' e = a.at' e := by
  obtain ⟨r, h1, _, h3, h4, h5⟩ := filter_at (le := le) ha kernel
  refine ⟨r, h1, h3, h4, fun e he => ?_⟩
  obtain ⟨e', h6, h7⟩ := around_one a.at' (sizeOf' a) (kernelOf kernel) a.axes e hk (fun ax hax => by
    obtain ⟨n, hn⟩ := exists_get?_of_mem (d := a.shape) (by rw [SA.keys_shape ha]; exact hax)
    unfold sizeOf'
    rw [hn]
    exact he ax n hn) ha.2
  rw [h5 e, h7, show e' = e from funext h6]
  simp [middle]

/-! ### Examples -/

def exLe (x y : Nat) : Bool := decide (x ≤ y)
def exRow : SA Nat := ⟨["t"], ND.ofList [5] [1, 9, 2, 3, 8] 0⟩
theorem wf_exRow : exRow.WF := ⟨rfl, (by decide : ["t"].Nodup)⟩

example : ∃ r, filterMedian exLe exRow [("t", 3)] = .ok r ∧ r.WF ∧ r.axes = exRow.axes ∧ r.shape = exRow.shape ∧
    ∀ e, InRange exRow.shape e → IsMiddle exLe (r.at' e) (around exRow.at' (sizeOf' exRow) (kernelOf [("t", 3)]) exRow.axes e) :=
  C129_filter_median (fun a b c h1 h2 => by simp only [exLe, decide_eq_true_eq] at *; omega)
    (fun a b => by simp only [exLe, Bool.or_eq_true, decide_eq_true_eq]; omega) wf_exRow
    (fun ax hax => by
      change ax ∈ ["t"] at hax
      rw [List.mem_singleton] at hax; subst hax; decide)
example : (reflect 4 (-1) : Int) = 0 ∧ (reflect 4 (4 + 0) : Int) = 4 - 1 - 0 := C129_mirror (n := 4) (j := 0) (by omega) (by omega)
example : (reflect 4 2 : Int) = 2 := C129_inner (by omega) (by omega)
example : ∃ r, filterMedian exLe exRow [("x", 3)] = .ok r ∧ r.axes = exRow.axes ∧ r.shape = exRow.shape ∧
    ∀ e, InRange exRow.shape e → r.at' e = exRow.at' e :=
  C129_identity wf_exRow (fun ax hax => by
    change ax ∈ ["t"] at hax
    rw [List.mem_singleton] at hax; subst hax; decide)

end NA.Filter
