import Verif.Shape
import Mathlib.Data.List.Nodup

/-! Helper lemmas about `broadcastShapes`. -/

namespace NA
open Dict

/-- Pointwise effect of merging one size into another (helper for the proofs). -/
def joinOpt : Option Nat → Option Nat → Option (Option Nat)
  | r, none => some r
  | none, some n => some (some n)
  | some r, some n =>
    if r = n then some (some r) else if n = 1 then some (some r) else if r = 1 then some (some n)
    else none

theorem joinOpt_self (a : Option Nat) : joinOpt a a = some a := by
  cases a <;> simp [joinOpt]

@[simp] theorem joinOpt_none_right (a : Option Nat) : joinOpt a none = some a := by
  cases a <;> rfl

@[simp] theorem joinOpt_none_left (a : Option Nat) : joinOpt none a = some a := by
  cases a <;> rfl

theorem bcAxis_ok {r r' : Shape} {p : String × Nat} (h : bcAxis r p = .ok r') :
    (∀ x, get? r' x = if p.1 = x then (joinOpt (get? r x) (some p.2)).getD none else get? r x) ∧
    joinOpt (get? r p.1) (some p.2) ≠ none ∧
    (WF r → WF r') ∧
    keys r' = if p.1 ∈ keys r then keys r else keys r ++ [p.1] := by
  unfold bcAxis at h
  split at h
  · next ra hra =>
    have hmem := mem_keys_of_get? hra
    split at h
    · next h1 =>
      injection h with h; subst h; subst h1
      refine ⟨fun x => ?_, by simp [hra, joinOpt], id, by simp [hmem]⟩
      split
      · next h => subst h; simp [hra, joinOpt]
      · rfl
    · next h1 =>
      split at h
      · next h2 =>
        injection h with h; subst h
        refine ⟨fun x => ?_, by simp only [hra, joinOpt]; grind, id, by simp [hmem]⟩
        split
        · next h => subst h; simp only [hra, joinOpt]; grind
        · rfl
      · next h2 =>
        split at h
        · next h3 =>
          injection h with h; subst h
          refine ⟨fun x => ?_, by simp only [hra, joinOpt]; grind, fun hw => wf_set hw _ _, by
            rw [keys_set]⟩
          rw [get?_set]
          split
          · next h => subst h; simp only [hra, joinOpt]; grind
          · rfl
        · cases h
  · next hn =>
    injection h with h; subst h
    refine ⟨fun x => ?_, by simp [hn], fun hw => wf_set hw _ _, by rw [keys_set]⟩
    rw [get?_set]
    split
    · next h => subst h; simp [hn]
    · rfl

theorem bcAxis_error {r : Shape} {p : String × Nat} :
    bcAxis r p = .error .valueError ↔ joinOpt (get? r p.1) (some p.2) = none := by
  unfold bcAxis
  cases hr : get? r p.1 with
  | none => simp
  | some a =>
    simp only [joinOpt]
    split
    · simp
    · split
      · simp
      · split <;> simp

theorem bcAxis_cases (r : Shape) (p : String × Nat) :
    (∃ r', bcAxis r p = .ok r') ∨ bcAxis r p = .error .valueError := by
  unfold bcAxis
  split <;> repeat' split
  all_goals first | exact Or.inl ⟨_, rfl⟩ | exact Or.inr rfl

theorem foldlM_bcAxis_ok {r r' : Shape} {s : Shape} (hs : WF s)
    (h : s.foldlM bcAxis r = .ok r') :
    (∀ x, joinOpt (get? r x) (get? s x) = some (get? r' x)) ∧ (WF r → WF r') ∧
    keys r' = keys r ++ (keys s).filter (· ∉ keys r) := by
  induction s generalizing r with
  | nil =>
    simp [pure, Except.pure] at h
    subst h
    simp
  | cons p s ih =>
    rw [wf_cons] at hs
    rw [List.foldlM_cons] at h
    cases hb : bcAxis r p with
    | error e => rw [hb] at h; cases h
    | ok r1 =>
      rw [hb] at h
      obtain ⟨i1, i2, i3⟩ := ih hs.2 h
      obtain ⟨b1, b2, b3, b4⟩ := bcAxis_ok hb
      refine ⟨fun x => ?_, fun hw => i2 (b3 hw), ?_⟩
      · rw [get?_cons, ← i1 x, b1 x]
        split
        · next hx =>
          subst hx
          have : get? s p.1 = none := get?_eq_none.2 hs.1
          rw [this, joinOpt_none_right]
          cases hj : joinOpt (get? r p.1) (some p.2) with
          | none => exact absurd hj b2
          | some v => rfl
        · rfl
      · rw [i3, b4]
        split
        · next hm => simp [hm]
        · next hm =>
          simp only [keys_cons, List.filter_cons, hm, not_false_eq_true, decide_true, if_true,
            List.append_assoc, List.singleton_append]
          congr 2
          apply List.filter_congr
          intro x hx
          have : x ≠ p.1 := by rintro rfl; exact hs.1 hx
          simp [this]

theorem foldlM_bcAxis_error {r : Shape} {s : Shape} (hs : WF s) {e : Err}
    (h : s.foldlM bcAxis r = .error e) :
    e = .valueError ∧ ∃ x, joinOpt (get? r x) (get? s x) = none := by
  induction s generalizing r with
  | nil => simp [pure, Except.pure] at h
  | cons p s ih =>
    rw [wf_cons] at hs
    rw [List.foldlM_cons] at h
    rcases bcAxis_cases r p with ⟨r1, hb⟩ | hb
    · rw [hb] at h
      obtain ⟨he, x, hx⟩ := ih hs.2 h
      refine ⟨he, x, ?_⟩
      obtain ⟨b1, b2, b3, b4⟩ := bcAxis_ok hb
      rw [b1] at hx
      rw [get?_cons]
      split at hx
      · next hpx =>
        subst hpx
        rw [get?_eq_none.2 hs.1] at hx
        simp at hx
      · next hpx => simpa [hpx] using hx
    · rw [hb] at h
      refine ⟨by cases h; rfl, p.1, ?_⟩
      rw [get?_cons]
      simpa using bcAxis_error.1 hb

theorem bcShape_ok {r s r' : Shape} (hr : WF r) (hs : WF s) (h : bcShape r s = .ok r') :
    (∀ x, joinOpt (get? r x) (get? s x) = some (get? r' x)) ∧ WF r' ∧
    keys r' = keys r ++ (keys s).filter (· ∉ keys r) := by
  unfold bcShape at h
  split at h
  · next he =>
    injection h with h; subst h
    rw [eqv_iff hs hr] at he
    refine ⟨fun x => by rw [he x, joinOpt_self], hr, ?_⟩
    have : (keys s).filter (· ∉ keys r) = [] := by
      rw [List.filter_eq_nil_iff]
      intro x hx
      have : x ∈ keys r := by rw [← get?_isSome, ← he x, get?_isSome]; exact hx
      simp [this]
    rw [this, List.append_nil]
  · obtain ⟨h1, h2, h3⟩ := foldlM_bcAxis_ok hs h
    exact ⟨h1, h2 hr, h3⟩

theorem bcShape_error {r s : Shape} (hs : WF s) {e : Err}
    (h : bcShape r s = .error e) :
    e = .valueError ∧ ∃ x, joinOpt (get? r x) (get? s x) = none := by
  unfold bcShape at h
  split at h
  · cases h
  · exact foldlM_bcAxis_error hs h

/-- The sizes given to axis `ax` by a list of shapes. -/
def sizesOf (ss : List Shape) (ax : String) : List Nat := ss.filterMap (fun s => get? s ax)

/-- Invariant of the fold: `r` is the axis-wise join of the sizes in `l`. -/
def JoinOf (l : List Nat) : Option Nat → Prop
  | none => l = []
  | some n => n ∈ l ∧ ∀ m ∈ l, m = n ∨ m = 1

theorem joinOf_step {l : List Nat} {a b c : Option Nat} (h : JoinOf l a)
    (hj : joinOpt a b = some c) : JoinOf (l ++ b.toList) c := by
  cases b with
  | none => simp at hj; subst hj; simpa using h
  | some n =>
    cases a with
    | none =>
      simp at hj; subst hj
      simp [JoinOf] at h
      subst h
      simp [JoinOf]
    | some r =>
      simp only [JoinOf] at h
      simp only [joinOpt] at hj
      split at hj
      · next e =>
        cases hj; subst e
        refine ⟨by simp [h.1], fun m hm => ?_⟩
        simp at hm
        rcases hm with hm | hm
        · exact h.2 m hm
        · exact Or.inl hm
      · split at hj
        · next e =>
          cases hj; subst e
          refine ⟨by simp [h.1], fun m hm => ?_⟩
          simp at hm
          rcases hm with hm | hm
          · exact h.2 m hm
          · exact Or.inr hm
        · split at hj
          · next e =>
            cases hj; subst e
            refine ⟨by simp, fun m hm => ?_⟩
            simp at hm
            rcases hm with hm | hm
            · exact Or.inr (by simpa using h.2 m hm)
            · exact Or.inl hm
          · cases hj

theorem joinOf_conflict {l : List Nat} {a b : Option Nat} (h : JoinOf l a)
    (hj : joinOpt a b = none) : ∃ m n, m ∈ l ∧ b = some n ∧ m ≠ n ∧ m ≠ 1 ∧ n ≠ 1 := by
  cases b with
  | none => simp at hj
  | some n =>
    cases a with
    | none => simp at hj
    | some r =>
      simp only [joinOpt] at hj
      split at hj
      · cases hj
      · next h1 =>
        split at hj
        · cases hj
        · next h2 =>
          split at hj
          · cases hj
          · next h3 => exact ⟨r, n, h.1, rfl, h1, h3, h2⟩

theorem joinOf_unique {l l' : List Nat} (hl : ∀ x, x ∈ l ↔ x ∈ l') {a b : Option Nat}
    (ha : JoinOf l a) (hb : JoinOf l' b) : a = b := by
  cases a with
  | none =>
    cases b with
    | none => rfl
    | some n =>
      simp only [JoinOf] at ha hb
      have := (hl n).2 hb.1
      simp [ha] at this
  | some m =>
    cases b with
    | none =>
      simp only [JoinOf] at ha hb
      have := (hl m).1 ha.1
      simp [hb] at this
    | some n =>
      simp only [JoinOf] at ha hb
      rcases ha.2 n ((hl n).2 hb.1) with h | h
      · rw [h]
      · rcases hb.2 m ((hl m).1 ha.1) with h' | h'
        · rw [h']
        · rw [h, h']

theorem foldlM_bcShape_ok {ss : List Shape} (hss : ∀ s ∈ ss, WF s) {r r' : Shape} (hr : WF r)
    {l : String → List Nat} (hl : ∀ x, JoinOf (l x) (get? r x))
    (h : ss.foldlM bcShape r = .ok r') :
    WF r' ∧ ∀ x, JoinOf (l x ++ sizesOf ss x) (get? r' x) := by
  induction ss generalizing r l with
  | nil =>
    simp [pure, Except.pure] at h
    subst h
    simpa [sizesOf] using ⟨hr, hl⟩
  | cons s ss ih =>
    rw [List.foldlM_cons] at h
    cases hb : bcShape r s with
    | error e => rw [hb] at h; cases h
    | ok r1 =>
      rw [hb] at h
      obtain ⟨b1, b2, _⟩ := bcShape_ok hr (hss s (by simp)) hb
      obtain ⟨i1, i2⟩ := ih (fun t ht => hss t (by simp [ht])) b2
        (l := fun x => l x ++ (get? s x).toList) (fun x => joinOf_step (hl x) (b1 x)) h
      refine ⟨i1, fun x => ?_⟩
      have := i2 x
      unfold sizesOf at *
      rw [List.filterMap_cons]
      cases hx : get? s x <;> simpa [hx] using this

theorem foldlM_bcShape_error {ss : List Shape} (hss : ∀ s ∈ ss, WF s) {r : Shape} (hr : WF r)
    {l : String → List Nat} (hl : ∀ x, JoinOf (l x) (get? r x)) {e : Err}
    (h : ss.foldlM bcShape r = .error e) :
    e = .valueError ∧ ∃ x m n, m ∈ l x ++ sizesOf ss x ∧ n ∈ l x ++ sizesOf ss x ∧ m ≠ n ∧ m ≠ 1 ∧
      n ≠ 1 := by
  induction ss generalizing r l with
  | nil => simp [pure, Except.pure] at h
  | cons s ss ih =>
    rw [List.foldlM_cons] at h
    cases hb : bcShape r s with
    | error e' =>
      rw [hb] at h
      cases h
      obtain ⟨he, x, hx⟩ := bcShape_error (hss s (by simp)) hb
      obtain ⟨m, n, hm, hn, h1, h2, h3⟩ := joinOf_conflict (hl x) hx
      refine ⟨he, x, m, n, by simp [hm], ?_, h1, h2, h3⟩
      simp [sizesOf, hn]
    | ok r1 =>
      rw [hb] at h
      obtain ⟨b1, b2, _⟩ := bcShape_ok hr (hss s (by simp)) hb
      obtain ⟨he, x, m, n, hm, hn, hrest⟩ := ih (fun t ht => hss t (by simp [ht])) b2
        (l := fun x => l x ++ (get? s x).toList) (fun x => joinOf_step (hl x) (b1 x)) h
      have hsub : ∀ z, z ∈ (l x ++ (get? s x).toList) ++ sizesOf ss x →
          z ∈ l x ++ sizesOf (s :: ss) x := by
        intro z hz
        unfold sizesOf at *
        rw [List.filterMap_cons]
        cases hx : get? s x <;> simpa [hx] using hz
      exact ⟨he, x, m, n, hsub _ hm, hsub _ hn, hrest⟩

theorem joinOf_init (s : Shape) (x : String) : JoinOf (get? s x).toList (get? s x) := by
  cases get? s x <;> simp [JoinOf]

theorem sizesOf_cons (s : Shape) (ss : List Shape) (x : String) :
    sizesOf (s :: ss) x = (get? s x).toList ++ sizesOf ss x := by
  unfold sizesOf
  rw [List.filterMap_cons]
  cases get? s x <;> simp

theorem broadcastShapes_joinOf {ss : List Shape} (hss : ∀ s ∈ ss, WF s) {r : Shape}
    (h : broadcastShapes ss = .ok r) : WF r ∧ ∀ x, JoinOf (sizesOf ss x) (get? r x) := by
  cases ss with
  | nil =>
    simp [broadcastShapes] at h
    subst h
    simp [wf_nil, sizesOf, JoinOf]
  | cons s ss =>
    have := foldlM_bcShape_ok (fun t ht => hss t (by simp [ht])) (hss s (by simp))
      (l := fun x => (get? s x).toList) (fun x => joinOf_init s x) h
    refine ⟨this.1, fun x => ?_⟩
    rw [sizesOf_cons]
    exact this.2 x

theorem broadcastShapes_error {ss : List Shape} (hss : ∀ s ∈ ss, WF s) {e : Err}
    (h : broadcastShapes ss = .error e) :
    e = .valueError ∧ ∃ x m n, m ∈ sizesOf ss x ∧ n ∈ sizesOf ss x ∧ m ≠ n ∧ m ≠ 1 ∧ n ≠ 1 := by
  cases ss with
  | nil => simp [broadcastShapes] at h
  | cons s ss =>
    have := foldlM_bcShape_error (fun t ht => hss t (by simp [ht])) (hss s (by simp))
      (l := fun x => (get? s x).toList) (fun x => joinOf_init s x) h
    simpa only [sizesOf_cons] using this

theorem not_joinOf_of_conflict {l : List Nat} {m n : Nat} (hm : m ∈ l) (hn : n ∈ l) (h : m ≠ n)
    (h1 : m ≠ 1) (h2 : n ≠ 1) (a : Option Nat) : ¬ JoinOf l a := by
  intro ha
  cases a with
  | none => simp only [JoinOf] at ha; simp [ha] at hm
  | some r =>
    rcases ha.2 m hm with h' | h'
    · rcases ha.2 n hn with h'' | h''
      · exact h (h'.trans h''.symm)
      · exact h2 h''
    · exact h1 h'

theorem eraseDups_append_filter (l l' : List String) :
    (l ++ l').eraseDups = l.eraseDups ++ (l'.filter (· ∉ l)).eraseDups := by
  rw [List.eraseDups_append]
  congr 2
  simp only [List.removeAll]
  apply List.filter_congr
  intro x _
  simp

theorem eraseDups_of_nodup {l : List String} (h : l.Nodup) : l.eraseDups = l := by
  induction l with
  | nil => rfl
  | cons a l ih =>
    rw [List.nodup_cons] at h
    rw [List.eraseDups_cons]
    have : l.filter (fun b => !b == a) = l := by
      rw [List.filter_eq_self]
      intro b hb
      have : b ≠ a := by rintro rfl; exact h.1 hb
      simp [this]
    rw [this, ih h.2]

theorem foldlM_bcShape_keys {ss : List Shape} (hss : ∀ s ∈ ss, WF s) {r r' : Shape} (hr : WF r)
    (h : ss.foldlM bcShape r = .ok r') :
    keys r' = (keys r ++ ss.flatMap keys).eraseDups := by
  induction ss generalizing r with
  | nil =>
    simp [pure, Except.pure] at h
    subst h
    simp [eraseDups_of_nodup hr]
  | cons s ss ih =>
    rw [List.foldlM_cons] at h
    cases hb : bcShape r s with
    | error e => rw [hb] at h; cases h
    | ok r1 =>
      rw [hb] at h
      obtain ⟨_, b2, b3⟩ := bcShape_ok hr (hss s (by simp)) hb
      rw [ih (fun t ht => hss t (by simp [ht])) b2 h, b3]
      rw [List.flatMap_cons, ← List.append_assoc, eraseDups_append_filter,
        eraseDups_append_filter (keys r ++ keys s)]
      congr 1
      · have hk : (keys r ++ (keys s).filter (· ∉ keys r)).Nodup := by rw [← b3]; exact b2
        rw [eraseDups_of_nodup hk, eraseDups_append_filter, eraseDups_of_nodup hr,
          eraseDups_of_nodup ((hss s (by simp)).filter _)]
      · congr 1
        apply List.filter_congr
        intro x _
        by_cases hx : x ∈ keys r <;> simp [hx]

theorem mem_ndIndices {s : List Nat} {i : List Nat} :
    i ∈ ndIndices s ↔ List.Forall₂ (· < ·) i s := by
  induction s generalizing i with
  | nil => simp [ndIndices]
  | cons n s ih =>
    simp only [ndIndices, List.mem_flatMap, List.mem_range, List.mem_map]
    constructor
    · rintro ⟨a, ha, t, ht, rfl⟩
      exact .cons ha (ih.1 ht)
    · intro h
      cases h with
      | cons h1 h2 => exact ⟨_, h1, _, ih.2 h2, rfl⟩

theorem nodup_ndIndices (s : List Nat) : (ndIndices s).Nodup := by
  induction s with
  | nil => simp [ndIndices]
  | cons n s ih =>
    simp only [ndIndices]
    rw [List.nodup_flatMap]
    refine ⟨fun a _ => ih.map (fun x y h => by simpa using h), ?_⟩
    refine List.Pairwise.imp (R := (· ≠ ·)) ?_ List.nodup_range
    intro a b hab
    simp only [Function.onFun, List.disjoint_left, List.mem_map, not_exists, not_and]
    rintro _ ⟨t, _, rfl⟩ u _ h
    simp at h
    exact hab h.1.symm

theorem sorted_ndIndices (s : List Nat) : (ndIndices s).Pairwise (List.Lex (· < ·)) := by
  induction s with
  | nil => simp [ndIndices]
  | cons n s ih =>
    simp only [ndIndices]
    rw [List.flatMap_def, List.pairwise_flatten]
    refine ⟨?_, ?_⟩
    · intro l hl
      simp only [List.mem_map, List.mem_range] at hl
      obtain ⟨a, _, rfl⟩ := hl
      rw [List.pairwise_map]
      exact ih.imp (fun h => List.Lex.cons h)
    · rw [List.pairwise_map]
      refine List.Pairwise.imp ?_ List.pairwise_lt_range
      intro a b hab x hx y hy
      simp only [List.mem_map] at hx hy
      obtain ⟨_, _, rfl⟩ := hx
      obtain ⟨_, _, rfl⟩ := hy
      exact List.Lex.rel hab

end NA
