import Verif.Function.Polynomial
import Verif.Scalar.Arith
import Mathlib.Data.Multiset.Basic
import Mathlib.Algebra.BigOperators.Group.Multiset.Basic

/-!
# Polynomial terms and design matrices (C54)
-/

namespace NA
open Dict
open SA (FitsIn InRange)

namespace Poly

/-! ### Specification -/

/-- The monomial which a name stands for: the components which are multiplied, with their multiplicities; the empty name
is the constant term. -/
def factors (name : String) : Multiset String := if name = "" then 0 else (splitStar name : Multiset String)

/-- Component names which are not empty and do not contain an asterisk. -/
def Plain (l : List String) : Prop := "" ∉ l ∧ ∀ x ∈ l, '*' ∉ x.toList

/-! ### Helpers -/

theorem mem_combinations {α : Type} : ∀ (l : List α) (k : Nat) (c : List α), c ∈ combinations l k → c.length = k ∧ c ⊆ l
  | _, 0, c, h => by simp [combinations_zero, combinations_nil] at h; simp [h]
  | [], k + 1, c, h => by simp [combinations_zero, combinations_nil] at h
  | x :: xs, k + 1, c, h => by
    rw [combinations_cons, List.mem_append, List.mem_map] at h
    rcases h with ⟨c', h', rfl⟩ | h
    · obtain ⟨h1, h2⟩ := mem_combinations (x :: xs) k c' h'
      refine ⟨by simp [h1], ?_⟩
      intro y hy
      rcases List.mem_cons.1 hy with rfl | hy
      · simp
      · exact h2 hy
    · obtain ⟨h1, h2⟩ := mem_combinations xs (k + 1) c h
      exact ⟨h1, fun y hy => List.mem_cons_of_mem _ (h2 hy)⟩

theorem combinations_complete {α : Type} [DecidableEq α] : ∀ (l : List α) (k : Nat) (c : List α), c.length = k → c ⊆ l →
    ∃ c' ∈ combinations l k, c'.Perm c
  | _, 0, c, h, _ => by
    have : c = [] := List.length_eq_zero_iff.1 h
    subst this
    exact ⟨[], by simp [combinations_zero, combinations_nil], List.Perm.refl _⟩
  | [], k + 1, c, h, hs => by
    have : c = [] := List.eq_nil_iff_forall_not_mem.2 fun x hx => by simpa using hs hx
    subst this
    simp at h
  | x :: xs, k + 1, c, h, hs => by
    by_cases hx : x ∈ c
    · have hp := List.perm_cons_erase hx
      obtain ⟨c', h1, h2⟩ := combinations_complete (x :: xs) k (c.erase x) (by
        have := hp.length_eq; simp at this; omega) (fun y hy => hs (List.mem_of_mem_erase hy))
      refine ⟨x :: c', ?_, (h2.cons x).trans hp.symm⟩
      rw [combinations_cons, List.mem_append, List.mem_map]
      exact Or.inl ⟨c', h1, rfl⟩
    · obtain ⟨c', h1, h2⟩ := combinations_complete xs (k + 1) c h (fun y hy => by
        rcases List.mem_cons.1 (hs hy) with rfl | h
        · exact absurd hy hx
        · exact h)
      refine ⟨c', ?_, h2⟩
      rw [combinations_cons, List.mem_append]
      exact Or.inr h1

theorem combinations_perm {α : Type} : ∀ (l : List α) (k : Nat), l.Nodup → ∀ c ∈ combinations l k, ∀ c' ∈ combinations l k,
    c.Perm c' → c = c'
  | _, 0, _, c, h, c', h', _ => by simp [combinations_zero, combinations_nil] at h h'; rw [h, h']
  | [], k + 1, _, c, h, _, _, _ => by simp [combinations_zero, combinations_nil] at h
  | x :: xs, k + 1, hl, c, h, c', h', hp => by
    rw [List.nodup_cons] at hl
    rw [combinations_cons, List.mem_append, List.mem_map] at h h'
    rcases h with ⟨d, hd, rfl⟩ | h <;> rcases h' with ⟨d', hd', rfl⟩ | h'
    · rw [combinations_perm (x :: xs) k (List.nodup_cons.2 hl) d hd d' hd' (List.Perm.cons_inv hp)]
    · exact absurd ((mem_combinations xs (k + 1) c' h').2 (hp.subset (List.mem_cons_self))) hl.1
    · exact absurd ((mem_combinations xs (k + 1) c h).2 (hp.symm.subset (List.mem_cons_self))) hl.1
    · exact combinations_perm xs (k + 1) hl.2 c h c' h' hp

theorem combinations_nodup {α : Type} : ∀ (l : List α) (k : Nat), l.Nodup → (combinations l k).Nodup
  | _, 0, _ => by simp [combinations_zero, combinations_nil]
  | [], k + 1, _ => by simp [combinations_zero, combinations_nil]
  | x :: xs, k + 1, hl => by
    have hl' := List.nodup_cons.1 hl
    rw [combinations_cons, List.nodup_append]
    refine ⟨(combinations_nodup (x :: xs) k hl).map (fun _ _ h => by injection h), combinations_nodup xs (k + 1) hl'.2, ?_⟩
    rintro a ha b hb rfl
    obtain ⟨d, _, rfl⟩ := List.mem_map.1 ha
    exact hl'.1 ((mem_combinations xs (k + 1) _ hb).2 List.mem_cons_self)

theorem intercalate_eq_empty {l : List String} (h : Plain l) (h0 : "*".intercalate l = "") : l = [] := by
  match l with
  | [] => rfl
  | [x] => rw [String.intercalate_singleton] at h0; exact absurd (by simp [h0]) h.1
  | x :: y :: l =>
    have := congrArg String.toList h0
    rw [String.toList_intercalate] at this
    simp [List.intercalate] at this

theorem splitStar_intercalate {l : List String} (h : Plain l) (hne : l ≠ []) : splitStar ("*".intercalate l) = l := by
  unfold splitStar
  rw [String.toList_intercalate]
  have : ("*" : String).toList = ['*'] := by decide
  rw [this, List.splitOn_intercalate '*' (by
    intro c hc
    obtain ⟨x, hx, rfl⟩ := List.mem_map.1 hc
    exact h.2 x hx) (by simpa using hne)]
  rw [List.map_map]
  conv_rhs => rw [← List.map_id l]
  exact List.map_congr_left fun x _ => by simp

theorem factors_intercalate {l : List String} (h : Plain l) : factors ("*".intercalate l) = (l : Multiset String) := by
  unfold factors
  by_cases h0 : "*".intercalate l = ""
  · rw [if_pos h0, intercalate_eq_empty h h0]; rfl
  · rw [if_neg h0]
    have : l ≠ [] := by rintro rfl; exact h0 (by decide)
    rw [splitStar_intercalate h this]

theorem plain_of_subset {l l' : List String} (h : Plain l) (hs : l' ⊆ l) : Plain l' :=
  ⟨fun hx => h.1 (hs hx), fun x hx => h.2 x (hs hx)⟩

theorem mem_coefficientNames {components : List String} {degree : Nat} {name : String} :
    name ∈ coefficientNames components degree ↔
      ∃ i ≤ degree, ∃ c ∈ combinations components i, "*".intercalate c = name := by
  unfold coefficientNames
  simp only [List.mem_flatMap, List.mem_range, List.mem_map, Nat.lt_succ_iff]

/-! ### C54 -/

/-- **C54** (terms). For distinct component names (not empty and without asterisks), the names of `from_degree` are without
repetition, and stand for exactly the monomials of total degree at most `degree`, each of them once. -/
theorem C54_terms (components : List String) (hnd : components.Nodup) (hp : Plain components) (degree : Nat) :
    (coefficientNames components degree).Nodup ∧
    (∀ name ∈ coefficientNames components degree,
      (∀ x ∈ factors name, x ∈ components) ∧ Multiset.card (factors name) ≤ degree) ∧
    ∀ m : Multiset String, (∀ x ∈ m, x ∈ components) → Multiset.card m ≤ degree →
      ∃! name, name ∈ coefficientNames components degree ∧ factors name = m := by
  have hplain : ∀ i, ∀ c ∈ combinations components i, Plain c :=
    fun i c hc => plain_of_subset hp (mem_combinations _ _ _ hc).2
  have hinj : ∀ i, ∀ c ∈ combinations components i, ∀ j, ∀ c' ∈ combinations components j,
      factors ("*".intercalate c) = factors ("*".intercalate c') → c = c' := by
    intro i c hc j c' hc' h
    rw [factors_intercalate (hplain i c hc), factors_intercalate (hplain j c' hc'), Multiset.coe_eq_coe] at h
    have h1 := (mem_combinations _ _ _ hc).1
    have h2 := (mem_combinations _ _ _ hc').1
    have h3 := h.length_eq
    have : i = j := by omega
    subst this
    exact combinations_perm components i hnd c hc c' hc' h
  refine ⟨?_, ?_, ?_⟩
  · unfold coefficientNames
    rw [List.nodup_flatMap]
    refine ⟨fun i _ => ?_, ?_⟩
    · refine List.Nodup.map_on ?_ (combinations_nodup components i hnd)
      intro c hc c' hc' h
      exact hinj i c hc i c' hc' (by rw [h])
    · refine List.Nodup.pairwise_of_forall_ne List.nodup_range ?_
      intro i _ j _ hij
      rw [Function.onFun, List.disjoint_left]
      intro x hx hx'
      obtain ⟨c, hc, rfl⟩ := List.mem_map.1 hx
      obtain ⟨c', hc', h'⟩ := List.mem_map.1 hx'
      have := hinj j c' hc' i c hc (by rw [h'])
      subst this
      exact hij (by rw [← (mem_combinations _ _ _ hc).1, (mem_combinations _ _ _ hc').1])
  · intro name hname
    obtain ⟨i, hi, c, hc, rfl⟩ := mem_coefficientNames.1 hname
    rw [factors_intercalate (hplain i c hc)]
    obtain ⟨h1, h2⟩ := mem_combinations _ _ _ hc
    refine ⟨fun x hx => h2 (by simpa using hx), ?_⟩
    rw [Multiset.coe_card, h1]; exact hi
  · intro m
    induction m using Quotient.inductionOn with
    | h l =>
      intro hm hcard
      have hm' : l ⊆ components := fun x hx => hm x (by simpa using hx)
      have hl : l.length ≤ degree := hcard
      obtain ⟨c, hc, hperm⟩ := combinations_complete components l.length l rfl hm'
      refine ⟨"*".intercalate c, ⟨mem_coefficientNames.2 ⟨_, hl, c, hc, rfl⟩, ?_⟩, ?_⟩
      · show factors ("*".intercalate c) = (l : Multiset String)
        rw [factors_intercalate (hplain _ c hc), Multiset.coe_eq_coe]; exact hperm
      · rintro name ⟨hname, hfac⟩
        have hfac' : factors name = (l : Multiset String) := hfac
        obtain ⟨i, hi, c', hc', rfl⟩ := mem_coefficientNames.1 hname
        rw [hinj i c' hc' _ c hc]
        rw [hfac', factors_intercalate (hplain _ c hc), Multiset.coe_eq_coe]
        exact hperm.symm

/-- two components of degree two: the constant, two linear and three quadratic terms -/
example : coefficientNames ["x", "y"] 2 = ["", "x", "y", "x*x", "x*y", "y*y"] := by decide +kernel
example : ["x", "y"].Nodup ∧ Plain ["x", "y"] := by
  refine ⟨by decide, by decide, ?_⟩
  simp
/-- An asterisk in a component name makes two terms collide. -/
example : ¬ (coefficientNames ["x", "y", "x*y"] 2).Nodup := by decide +kernel

variable {K : Type} [Field K]

theorem factors_fold (inputs : Dict (SA K)) (S : Shape) (hin : ∀ k a, get? inputs k = some a → Fits S a) :
    ∀ (l : List String) (t : SA K), Fits S t →
      ((∃ k ∈ l, k ∉ keys inputs) ∧ l.foldlM (factorStep inputs) t = .error .valueError) ∨
      ((∀ k ∈ l, k ∈ keys inputs) ∧ ∃ r, l.foldlM (factorStep inputs) t = .ok r ∧ Fits S r ∧
        ∀ e, r.atB e = t.atB e * (l.map (fun k => ((get? inputs k).map (fun a => a.atB e)).getD 0)).prod) := by
  intro l
  induction l with
  | nil => intro t ht; right; exact ⟨by simp, t, rfl, ht, by simp⟩
  | cons k l ih =>
    intro t ht
    rw [List.foldlM_cons]
    cases hk : get? inputs k with
    | none =>
      left
      refine ⟨⟨k, by simp, get?_eq_none.1 hk⟩, ?_⟩
      unfold factorStep; rw [hk]; rfl
    | some a =>
      obtain ⟨c, c1, c2, c3⟩ := ufunc2_fits' (· * ·) ht (hin k a hk)
      have hstep : factorStep inputs t k = .ok c := by unfold factorStep; rw [hk]; exact c1
      rw [hstep]
      rcases ih c c2 with ⟨⟨y, h1, h2⟩, h3⟩ | ⟨h1, r, h2, h3, h4⟩
      · left; exact ⟨⟨y, by simp [h1], h2⟩, h3⟩
      · right
        refine ⟨?_, r, h2, h3, fun e => ?_⟩
        · intro y hy
          rcases List.mem_cons.1 hy with rfl | hy
          · exact mem_keys_of_get? hk
          · exact h1 y hy
        · rw [h4, c3, List.map_cons, List.prod_cons, hk]
          simp [mul_assoc]

/-- The value of a monomial at a named index. -/
def monomial (inputs : Dict (SA K)) (m : Multiset String) (e : String → Nat) : K :=
  (m.map (fun k => ((get? inputs k).map (fun a => a.atB e)).getD 0)).prod

theorem term_main (inputs : Dict (SA K)) (S : Shape) (hin : ∀ k a, get? inputs k = some a → Fits S a) (name : String) :
    ((∃ k ∈ factors name, k ∉ keys inputs) ∧ term inputs name = .error .valueError) ∨
    ((∀ k ∈ factors name, k ∈ keys inputs) ∧ ∃ t, term inputs name = .ok t ∧ Fits S t ∧
      ∀ e, t.atB e = monomial inputs (factors name) e) := by
  unfold term factors
  by_cases h0 : name = ""
  · right
    rw [if_pos h0, if_pos h0]
    exact ⟨by simp, SA.scalar 1, rfl, fits_scalar S 1, fun e => by simp [monomial]; rfl⟩
  · rw [if_neg h0, if_neg h0]
    rcases factors_fold inputs S hin (splitStar name) (SA.scalar 1) (fits_scalar S 1) with ⟨⟨k, h1, h2⟩, h3⟩ | ⟨h1, r, h2, h3, h4⟩
    · left; exact ⟨⟨k, by simpa using h1, h2⟩, h3⟩
    · right
      refine ⟨by simpa using h1, r, h2, h3, fun e => ?_⟩
      rw [h4]
      have : (SA.scalar (1 : K)).atB e = 1 := rfl
      rw [this, one_mul, monomial, Multiset.map_coe, Multiset.prod_coe]

theorem design_fold (inputs : Dict (SA K)) (S : Shape) (hin : ∀ k a, get? inputs k = some a → Fits S a) :
    ∀ (names : List String) (d : Dict (SA K)), WF d →
      ((∃ name ∈ names, ∃ k ∈ factors name, k ∉ keys inputs) ∧
        names.foldlM (fun d name => (do let t ← term inputs name; .ok (d.set name t) : R (Dict (SA K)))) d = .error .valueError) ∨
      ((∀ name ∈ names, ∀ k ∈ factors name, k ∈ keys inputs) ∧
        ∃ D, names.foldlM (fun d name => (do let t ← term inputs name; .ok (d.set name t) : R (Dict (SA K)))) d = .ok D ∧ WF D ∧
          (∀ name, name ∈ keys D ↔ name ∈ keys d ∨ name ∈ names) ∧
          ∀ name, (name ∉ names → get? D name = get? d name) ∧
            (name ∈ names → ∃ t, get? D name = some t ∧ Fits S t ∧ ∀ e, t.atB e = monomial inputs (factors name) e)) := by
  intro names
  induction names with
  | nil => intro d hd; right; exact ⟨by simp, d, rfl, hd, by simp, by simp⟩
  | cons x l ih =>
    intro d hd
    rw [List.foldlM_cons]
    rcases term_main inputs S hin x with ⟨⟨k, h1, h2⟩, h3⟩ | ⟨h1, t, h2, h3, h4⟩
    · left
      refine ⟨⟨x, by simp, k, h1, h2⟩, ?_⟩
      simp only [h3, bind, Except.bind]
    · simp only [h2, bind, Except.bind]
      rcases ih (d.set x t) (wf_set hd _ _) with ⟨⟨y, g1, g2⟩, g3⟩ | ⟨g1, D, g2, g3, g4, g5⟩
      · left; exact ⟨⟨y, by simp [g1], g2⟩, g3⟩
      · right
        have hk : ∀ name, name ∈ keys (d.set x t) ↔ name ∈ keys d ∨ name = x := by
          intro name
          have hex : ∀ (d : Dict (SA K)), name ∈ keys d ↔ get? d name ≠ none := fun d => by
            rw [Ne, get?_eq_none, not_not]
          rw [hex, hex, get?_set]
          by_cases h : x = name
          · subst h; simp
          · simp [h, Ne.symm h, eq_comm]
        refine ⟨?_, D, g2, g3, fun name => ?_, fun name => ⟨fun hn => ?_, fun hn => ?_⟩⟩
        · intro name hn
          rcases List.mem_cons.1 hn with rfl | hn
          · exact h1
          · exact g1 name hn
        · rw [g4, hk, List.mem_cons, or_assoc]
        · rw [List.mem_cons, not_or] at hn
          rw [(g5 name).1 hn.2, get?_set, if_neg (Ne.symm hn.1)]
        · by_cases hl : name ∈ l
          · exact (g5 name).2 hl
          · rcases List.mem_cons.1 hn with rfl | hn
            · exact ⟨t, by rw [(g5 name).1 hl, get?_set, if_pos rfl], h3, h4⟩
            · exact absurd hn hl

/-- **C54** (design matrix). For coefficient names whose factors are components of the inputs, the design matrix has
exactly these names, and its component of a name is at each index the product of the components which the name lists. -/
theorem C54_design_matrix (inputs : Dict (SA K)) (S : Shape) (hin : ∀ k a, get? inputs k = some a → Fits S a)
    (names : List String) (hnames : ∀ name ∈ names, ∀ k ∈ factors name, k ∈ keys inputs) :
    ∃ D, designMatrix inputs (some names) = .ok D ∧ WF D ∧ (∀ name, name ∈ keys D ↔ name ∈ names) ∧
      ∀ name ∈ names, ∃ t, get? D name = some t ∧ Fits S t ∧ ∀ e, t.atB e = monomial inputs (factors name) e := by
  rcases design_fold inputs S hin names [] wf_nil with ⟨⟨name, h1, k, h2, h3⟩, _⟩ | ⟨_, D, h1, h2, h3, h4⟩
  · exact absurd (hnames name h1 k h2) h3
  · exact ⟨D, h1, h2, by simpa [keys] using h3, fun name hn => (h4 name).2 hn⟩

/-- **C54** (failure). Without coefficient names, or if a name lists something which is not a component of the inputs, the
design matrix raises `ValueError`. -/
theorem C54_design_matrix_error (inputs : Dict (SA K)) (S : Shape) (hin : ∀ k a, get? inputs k = some a → Fits S a)
    (names : Option (List String)) (h : ∀ l, names = some l → ∃ name ∈ l, ∃ k ∈ factors name, k ∉ keys inputs) :
    designMatrix inputs names = .error .valueError := by
  cases names with
  | none => rfl
  | some l =>
    rcases design_fold inputs S hin l [] wf_nil with ⟨_, h1⟩ | ⟨h1, _⟩
    · exact h1
    · obtain ⟨name, h2, k, h3, h4⟩ := h l rfl
      exact absurd (h1 name h2 k h3) h4

/-- **C54** (both). The design matrix of the terms of `from_degree` for components of the inputs. -/
theorem C54_from_degree (inputs : Dict (SA K)) (S : Shape) (hin : ∀ k a, get? inputs k = some a → Fits S a)
    (components : List String) (hnd : components.Nodup) (hp : Plain components) (hc : components ⊆ keys inputs) (degree : Nat) :
    ∃ D, designMatrix inputs (some (coefficientNames components degree)) = .ok D ∧ WF D ∧
      ∀ m : Multiset String, (∀ x ∈ m, x ∈ components) → Multiset.card m ≤ degree →
        ∃ name t, get? D name = some t ∧ factors name = m ∧ Fits S t ∧ ∀ e, t.atB e = monomial inputs m e := by
  obtain ⟨_, h2, h3⟩ := C54_terms components hnd hp degree
  obtain ⟨D, d1, d2, d3, d4⟩ := C54_design_matrix inputs S hin (coefficientNames components degree)
    (fun name hn k hk => hc ((h2 name hn).1 k hk))
  refine ⟨D, d1, d2, fun m hm hcard => ?_⟩
  obtain ⟨name, ⟨n1, n2⟩, _⟩ := h3 m hm hcard
  obtain ⟨t, t1, t2, t3⟩ := d4 name n1
  exact ⟨name, t, t1, n2, t2, fun e => by rw [t3, n2]⟩

/-- two components on a grid -/
def exInputs : Dict (SA ℚ) := [("x", ⟨["i", "j"], ND.ofList [2, 2] [1, 2, 3, 4] 0⟩), ("y", ⟨["j"], ND.ofList [2] [10, 20] 0⟩)]

example : (designMatrix exInputs (some (coefficientNames ["x", "y"] 2))).map (fun D => D.map (fun p => (p.1, p.2.nd.toList))) =
    .ok [("", [1]), ("x", [1, 2, 3, 4]), ("y", [10, 20]), ("x*x", [1, 4, 9, 16]), ("x*y", [10, 40, 30, 80]),
      ("y*y", [100, 400])] := by decide +kernel
example : (designMatrix exInputs (some ["x*z"])).map (fun D => D.map (fun p => (p.1, p.2.nd.toList))) = .error .valueError := by
  decide +kernel

end Poly
end NA
