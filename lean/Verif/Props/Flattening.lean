import Verif.Vector.Lemmas

/-!
# C38: flattening nested vectors is invertible
-/

namespace NA
namespace Comp
open Dict
variable {α β γ : Type}

/-- The dotted name of a path of component names: `".".join(path)`. -/
def dotted : List String → String
  | [] => ""
  | [k] => k
  | k :: k' :: p => k ++ "." ++ dotted (k' :: p)

/-- **C38** Flattening a nested vector and rebuilding it like itself gives the vector back. -/
theorem C38_roundtrip_partial (cs : List (String × Comp α)) (hw : WF cs) (hn : NamedL cs) :
    fromCartesianNd (cartesianNd cs) cs = .ok cs := by
  unfold fromCartesianNd
  rw [fromNdL_eq _ _ (wf_cartesianNd _), cartesianNd_eq hw hn]
  have hg : ∀ p ∈ entries cs, readNd (fun _ v => .ok v) (entries cs) p.1 p.2 = .ok p.2 := by
    intro p hp
    unfold readNd
    rw [get?_of_mem (wf_entries hw hn) (show (p.1, p.2) ∈ entries cs from hp)]
  obtain ⟨r, h1, h2, h3, h4⟩ := mapKeyL_ok (δ := α) hn (readNd (fun _ v => .ok v) (entries cs))
    (fun p hp => ⟨_, hg p hp⟩)
  rw [h1]
  congr 1
  refine ext_entriesL h2 hn h3 (steps_unique h4 ?_)
  rw [List.forall₂_same]
  exact fun p hp => ⟨rfl, hg p hp⟩

/-- **C38** The flat vector has one entry for each scalar of the nested vector. -/
theorem C38_one_entry_per_leaf_partial (cs : List (String × Comp α)) (hw : WF cs) (hn : NamedL cs) :
    (cartesianNd cs).length = numLeavesL cs := by
  rw [cartesianNd_eq hw hn]
  suffices key : ∀ c : Comp α, c.Named → ∀ k, (c.entriesOf k).length = c.numLeaves by
    clear hw
    induction cs with
    | nil => rfl
    | cons p l ih =>
      obtain ⟨k, c⟩ := p
      simp only [entries, numLeavesL, List.length_append, key c hn.2.1 k, ih hn.2.2]
  refine ind ?_ ?_
  · intro a _ k; rfl
  · intro cls cs ih hn k
    rw [entriesOf_node hn.1 hn.2, List.length_map, numLeaves]
    have h := hn.2
    clear hn hw
    induction cs with
    | nil => rfl
    | cons p l ih2 =>
      obtain ⟨k, c⟩ := p
      simp only [entries, numLeavesL, List.length_append, ih (k, c) (by simp) h.2.1 k,
        ih2 (fun p hp => ih p (by simp [hp])) h.2.2]

theorem get?_append (d d' : Dict α) (x : String) : get? (d ++ d') x = (get? d x).or (get? d' x) := by
  induction d with
  | nil => simp
  | cons p d ih =>
    rw [List.cons_append, get?_cons, get?_cons]
    split
    · rfl
    · exact ih

theorem get?_map_dot (k q : String) (d : Dict α) :
    get? (d.map (fun p => (k ++ "." ++ p.1, p.2))) (k ++ "." ++ q) = get? d q := by
  induction d with
  | nil => rfl
  | cons p d ih =>
    rw [List.map_cons, get?_cons, get?_cons, ih]
    by_cases h : p.1 = q
    · rw [if_pos h, if_pos (by rw [h])]
    · rw [if_neg h, if_neg (fun h' => h (dot_inj h'))]

theorem get?_entriesOf_other {c : Comp α} (hc : c.Named) {k q : String} (hk : '.' ∉ k.toList)
    (h : head q ≠ k.toList) : get? (c.entriesOf k) q = none := by
  rw [get?_eq_none]
  intro hm
  exact h ((wf_entriesOf c hc k hk).2 q hm)

theorem get?_entries {cs : List (String × Comp α)} (hw : WF cs) (hn : NamedL cs) {k q : String}
    (hk : '.' ∉ k.toList) (hq : head q = k.toList) :
    get? (entries cs) q = (get? cs k).bind (fun c => get? (c.entriesOf k) q) := by
  induction cs with
  | nil => rfl
  | cons p l ih =>
    obtain ⟨k', c⟩ := p
    obtain ⟨h1, h2⟩ := wf_cons.1 hw
    rw [entries, get?_append, get?_cons, ih h2 hn.2.2]
    by_cases h : k' = k
    · subst h
      rw [if_pos rfl, get?_eq_none.2 h1]
      simp
    · rw [if_neg h, get?_entriesOf_other hn.2.1 hn.1 (by
        rw [hq]
        intro h'
        exact h (String.toList_inj.1 h').symm)]
      simp

/-- **C38** The entry with a dotted name is the scalar found by following the names one by one. -/
theorem C38_entry_is_leaf_partial (cls : String) (cs : List (String × Comp α)) (hw : WF cs) (hn : NamedL cs)
    (path : List String) (hne : path ≠ []) (hp : ∀ k ∈ path, '.' ∉ k.toList) :
    get? (cartesianNd cs) (dotted path) = (node cls cs).leafAt path := by
  rw [cartesianNd_eq hw hn]
  induction path generalizing cls cs with
  | nil => exact absurd rfl hne
  | cons k p ih =>
    have hk := hp k (by simp)
    have hhead : head (dotted (k :: p)) = k.toList := by
      cases p with
      | nil => exact head_self hk
      | cons k' p => exact head_dot hk
    rw [get?_entries hw hn hk hhead, leafAt]
    cases hg : get? cs k with
    | none => rfl
    | some c =>
      have hcn : c.Named := ((namedL_iff.1 hn) (k, c) (mem_of_get? hg)).2
      simp only [Option.bind_some]
      cases c with
      | leaf a =>
        cases p with
        | nil => simp [entriesOf, dotted, leafAt, get?_cons]
        | cons k' p =>
          rw [entriesOf, get?_cons, if_neg, get?_nil, leafAt]
          intro h
          simp only [dotted] at h
          have := congrArg String.toList h
          rw [toList_dot] at this
          apply hk
          rw [this]
          simp
      | node cls' cs' =>
        rw [entriesOf_node hcn.1 hcn.2]
        cases p with
        | nil =>
          rw [leafAt, get?_eq_none, keys_map_dot]
          intro hm
          rw [List.mem_map] at hm
          obtain ⟨q, _, h⟩ := hm
          have := congrArg String.toList h
          rw [toList_dot] at this
          apply hk
          rw [show dotted [k] = k from rfl] at this
          rw [← this]
          simp
        | cons k' p =>
          rw [dotted, get?_map_dot]
          exact ih cls' cs' hcn.1 hcn.2 (by simp) (fun x hx => hp x (by simp [hx]))

/-- **C38** (the other direction) A flat vector with the right names is rebuilt as a nested vector
with the layout of `like`, whose flat form is the given one. -/
theorem C38_roundtrip_flat_partial (like : List (String × Comp γ)) (hw : WF like) (hn : NamedL like)
    (nd : Dict β) (hnd : WF nd) (hk : ∀ q, q ∈ keys nd ↔ q ∈ keys (cartesianNd like)) :
    ∃ r, fromCartesianNd nd like = .ok r ∧ skelL r = skelL like ∧
      keys (cartesianNd r) = keys (cartesianNd like) ∧ ∀ q, get? (cartesianNd r) q = get? nd q := by
  unfold fromCartesianNd
  rw [fromNdL_eq _ _ hnd]
  rw [cartesianNd_eq hw hn] at hk
  obtain ⟨r, h1, h2, h3, h4⟩ := mapKeyL_ok (δ := β) hn (readNd (fun _ v => .ok v) nd) (by
    intro p hp
    unfold readNd
    obtain ⟨v, hv⟩ := exists_get?_of_mem ((hk p.1).2 (List.mem_map.2 ⟨p, hp, rfl⟩))
    exact ⟨v, by simp [hv]⟩)
  have hrw : WF r := by unfold WF; rw [keys_of_skelL h3]; exact hw
  refine ⟨r, h1, h3, ?_, ?_⟩
  · rw [cartesianNd_eq hrw h2, cartesianNd_eq hw hn, keys_of_steps h4]
  · intro q
    rw [cartesianNd_eq hrw h2]
    rcases get?_of_steps h4 q with ⟨h5, h6⟩ | ⟨l, v, h5, h6, h7⟩
    · rw [h6, get?_eq_none.2 (fun h => get?_eq_none.1 h5 ((hk q).1 h))]
    · rw [h6]
      unfold readNd at h7
      cases hv : get? nd q with
      | none => rw [hv] at h7; cases h7
      | some v' => rw [hv] at h7; exact congrArg some (by injection h7 with h7; exact h7.symm)

/-- **C38** A missing entry raises `KeyError`. -/
theorem C38_missing_entry (like : List (String × Comp γ)) (hw : WF like) (hn : NamedL like)
    (nd : Dict β) (hnd : WF nd) (hk : ∃ q ∈ keys (cartesianNd like), q ∉ keys nd) :
    fromCartesianNd nd like = .error .keyError := by
  unfold fromCartesianNd
  rw [fromNdL_eq _ _ hnd]
  rw [cartesianNd_eq hw hn] at hk
  obtain ⟨q, hq, hq'⟩ := hk
  obtain ⟨p, hp, rfl⟩ := List.mem_map.1 hq
  exact mapKeyL_error hn _ .keyError (by
    intro p hp
    unfold readNd
    cases get? nd p.1 <;> simp_all) ⟨p, hp, by unfold readNd; rw [get?_eq_none.2 hq']⟩

/-- A name with a dot collides with a nested name. -/
theorem C38_dots_refuted :
    ∃ cs : List (String × Comp Nat), WF cs ∧ (cartesianNd cs).length ≠ numLeavesL cs ∧
      fromCartesianNd (cartesianNd cs) cs ≠ .ok cs := by
  refine ⟨[("a.b", .leaf 1), ("a", .node "CartesianNd" [("b", .leaf 2)])], by decide, by decide, ?_⟩
  have : fromCartesianNd (cartesianNd [("a.b", Comp.leaf 1), ("a", .node "CartesianNd" [("b", .leaf 2)])])
      [("a.b", Comp.leaf 1), ("a", .node "CartesianNd" [("b", .leaf 2)])] =
      .ok [("a.b", Comp.leaf 2), ("a", .node "CartesianNd" [("b", .leaf 2)])] := by rfl
  rw [this]
  simp

/-- A spectral and positional vector. -/
def exV : List (String × Comp Nat) :=
  [("wavelength", .leaf 5), ("position", .node "Cartesian2d" [("x", .leaf 1), ("y", .leaf 2)])]

example : WF exV := by decide
example : NamedL exV := by simp [exV, NamedL, Named, WF]
example : cartesianNd exV = [("wavelength", 5), ("position.x", 1), ("position.y", 2)] := by decide
example : fromCartesianNd [("wavelength", 7), ("position.y", 8), ("position.x", 9)] exV =
    .ok [("wavelength", .leaf 7), ("position", .node "Cartesian2d" [("x", .leaf 9), ("y", .leaf 8)])] := by rfl

end Comp
end NA
