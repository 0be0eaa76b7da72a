import Mathlib.Data.List.Perm.Subperm
/-!
# Python `dict` with string keys

A python `dict` is modelled as an association list in insertion order.  `Dict.WF` says that
the keys are distinct, which every python `dict` satisfies.

This file models the language, not `/repo`: item assignment (replace in place or append),
lookup, `|`, `pop`, `==`.
-/

namespace NA

/-- Exceptions raised by the modelled code, as values. -/
inductive Err where
  | valueError
  | typeError
  | keyError
  | indexError
  | notImplemented
  /-- `named_arrays.InputValueError`, a subclass of `ValueError` -/
  | inputValueError
  /-- any other exception (`AttributeError`, `StopIteration`, ...) -/
  | other
  deriving DecidableEq, Repr

/-- Result of python code that may raise. -/
abbrev R (α : Type) := Except Err α

instance {α : Type} [DecidableEq α] : DecidableEq (R α) := fun a b =>
  match a, b with
  | .ok x, .ok y => if h : x = y then isTrue (h ▸ rfl) else isFalse (fun h' => h (by injection h'))
  | .error x, .error y =>
    if h : x = y then isTrue (h ▸ rfl) else isFalse (fun h' => h (by injection h'))
  | .ok _, .error _ => isFalse (fun h => by cases h)
  | .error _, .ok _ => isFalse (fun h => by cases h)

/-- A python `dict` with `str` keys, in insertion order. -/
abbrev Dict (β : Type) := List (String × β)

namespace Dict

variable {β γ : Type}

/-- `d.keys()` -/
def keys (d : Dict β) : List String := d.map Prod.fst

/-- `d.values()` -/
def values (d : Dict β) : List β := d.map Prod.snd

/-- `d.get(k)` -/
def get? : Dict β → String → Option β
  | [], _ => none
  | (k, v) :: d, x => if k = x then some v else get? d x

/-- `d[k] = v`: replace in place when the key is present, append otherwise. -/
def set : Dict β → String → β → Dict β
  | [], k, v => [(k, v)]
  | (k', v') :: d, k, v => if k' = k then (k', v) :: d else (k', v') :: set d k v

/-- `d.pop(k)` (only the remaining dictionary; nothing happens when the key is absent). -/
def erase (d : Dict β) (k : String) : Dict β := d.filter (fun p => p.1 ≠ k)

/-- `d | d'` : the entries of `d'` override or are appended in order. -/
def union (d d' : Dict β) : Dict β := d'.foldl (fun acc p => set acc p.1 p.2) d

/-- `d == d'` : order-insensitive comparison. -/
def eqv [DecidableEq β] (d d' : Dict β) : Bool :=
  d.length == d'.length && d.all (fun p => get? d' p.1 == some p.2)

/-- The invariant of every python `dict`: keys are distinct. -/
def WF (d : Dict β) : Prop := (keys d).Nodup

instance (d : Dict β) : Decidable (WF d) := inferInstanceAs (Decidable (keys d).Nodup)

@[simp] theorem keys_nil : keys ([] : Dict β) = [] := rfl
@[simp] theorem keys_cons (p : String × β) (d : Dict β) : keys (p :: d) = p.1 :: keys d := rfl
@[simp] theorem keys_append (d d' : Dict β) : keys (d ++ d') = keys d ++ keys d' := by
  simp [keys]
@[simp] theorem values_nil : values ([] : Dict β) = [] := rfl
@[simp] theorem values_cons (p : String × β) (d : Dict β) : values (p :: d) = p.2 :: values d := rfl
@[simp] theorem length_keys (d : Dict β) : (keys d).length = d.length := by simp [keys]
@[simp] theorem length_values (d : Dict β) : (values d).length = d.length := by simp [values]
@[simp] theorem get?_nil (x : String) : get? ([] : Dict β) x = none := rfl

theorem get?_cons (p : String × β) (d : Dict β) (x : String) :
    get? (p :: d) x = if p.1 = x then some p.2 else get? d x := rfl

theorem wf_nil : WF ([] : Dict β) := by simp [WF]

theorem wf_cons {p : String × β} {d : Dict β} : WF (p :: d) ↔ p.1 ∉ keys d ∧ WF d := by
  simp [WF]

theorem get?_eq_none {d : Dict β} {x : String} : get? d x = none ↔ x ∉ keys d := by
  induction d with
  | nil => simp
  | cons p d ih =>
    rw [get?_cons]
    split
    · next h => simp [h]
    · next h => simp [ih, Ne.symm h]

theorem get?_isSome {d : Dict β} {x : String} : (get? d x).isSome ↔ x ∈ keys d := by
  rw [← Decidable.not_iff_not, ← get?_eq_none]
  cases get? d x <;> simp

theorem exists_get?_of_mem {d : Dict β} {x : String} (h : x ∈ keys d) : ∃ v, get? d x = some v :=
  Option.isSome_iff_exists.1 (get?_isSome.2 h)

theorem mem_keys_of_get? {d : Dict β} {x : String} {v : β} (h : get? d x = some v) : x ∈ keys d :=
  get?_isSome.1 (by simp [h])

theorem mem_of_get? {d : Dict β} {x : String} {v : β} (h : get? d x = some v) : (x, v) ∈ d := by
  induction d with
  | nil => simp at h
  | cons p d ih =>
    rw [get?_cons] at h
    split at h
    · next hk => cases h; subst hk; simp
    · exact List.mem_cons_of_mem _ (ih h)

theorem get?_of_mem {d : Dict β} (hd : WF d) {x : String} {v : β} (h : (x, v) ∈ d) :
    get? d x = some v := by
  induction d with
  | nil => simp at h
  | cons p d ih =>
    rw [wf_cons] at hd
    rw [get?_cons]
    rcases List.mem_cons.1 h with h | h
    · subst h; simp
    · have : p.1 ≠ x := by
        rintro rfl
        exact hd.1 (List.mem_map.2 ⟨_, h, rfl⟩)
      simp [this, ih hd.2 h]

theorem mem_iff_get? {d : Dict β} (hd : WF d) {x : String} {v : β} :
    (x, v) ∈ d ↔ get? d x = some v := ⟨get?_of_mem hd, mem_of_get?⟩

@[simp] theorem get?_set (d : Dict β) (k : String) (v : β) (x : String) :
    get? (set d k v) x = if k = x then some v else get? d x := by
  induction d with
  | nil => simp [set, get?_cons]
  | cons p d ih =>
    unfold set
    split
    · next h => subst h; simp only [get?_cons]; split <;> rfl
    · next h =>
      simp only [get?_cons, ih]
      split
      · next h1 =>
        subst h1
        simp [Ne.symm h]
      · rfl

theorem keys_set (d : Dict β) (k : String) (v : β) :
    keys (set d k v) = if k ∈ keys d then keys d else keys d ++ [k] := by
  induction d with
  | nil => simp [set]
  | cons p d ih =>
    unfold set
    split
    · next h => subst h; simp
    · next h =>
      simp only [keys_cons, ih, List.mem_cons, Ne.symm h, false_or]
      split <;> simp

theorem wf_set {d : Dict β} (hd : WF d) (k : String) (v : β) : WF (set d k v) := by
  unfold WF at *
  rw [keys_set]
  split
  · exact hd
  · next h =>
    rw [List.nodup_append]
    exact ⟨hd, by simp, by intro a ha b hb; simp at hb; subst hb; rintro rfl; exact h ha⟩

theorem set_of_get? {d : Dict β} {k : String} {v : β} (h : get? d k = some v) :
    set d k v = d := by
  induction d with
  | nil => simp at h
  | cons p d ih =>
    rw [get?_cons] at h
    unfold set
    split
    · next hk => subst hk; simp at h; subst h; rfl
    · next hk => simp [hk] at h; rw [ih h]

theorem set_of_not_mem {d : Dict β} {k : String} {v : β} (h : k ∉ keys d) :
    set d k v = d ++ [(k, v)] := by
  induction d with
  | nil => rfl
  | cons p d ih =>
    simp at h
    unfold set
    rw [if_neg (Ne.symm h.1), ih h.2]
    rfl

theorem keys_erase (d : Dict β) (k : String) : keys (erase d k) = (keys d).filter (· ≠ k) := by
  unfold keys erase
  rw [List.filter_map]
  rfl

theorem get?_erase (d : Dict β) (k x : String) :
    get? (erase d k) x = if k = x then none else get? d x := by
  unfold erase
  induction d with
  | nil => simp
  | cons p d ih =>
    rw [List.filter_cons]
    split
    · next h =>
      simp at h
      rw [get?_cons, ih, get?_cons]
      split
      · next h1 => subst h1; simp [Ne.symm h]
      · rfl
    · next h =>
      simp at h
      rw [ih, get?_cons, h]
      split <;> rfl

theorem wf_erase {d : Dict β} (hd : WF d) (k : String) : WF (erase d k) := by
  unfold WF at *
  rw [keys_erase]
  exact hd.filter _

theorem get?_union_of_wf (d d' : Dict β) (hd' : WF d') (x : String) :
    get? (union d d') x = (get? d' x).or (get? d x) := by
  unfold union
  induction d' generalizing d with
  | nil => simp
  | cons p d' ih =>
    rw [wf_cons] at hd'
    rw [List.foldl_cons, ih _ hd'.2, get?_set, get?_cons]
    split
    · next h =>
      subst h
      have := get?_eq_none.2 hd'.1
      simp [this]
    · rfl

theorem wf_union {d : Dict β} (hd : WF d) (d' : Dict β) : WF (union d d') := by
  unfold union
  induction d' generalizing d with
  | nil => simpa
  | cons p d' ih => exact ih (wf_set hd _ _)

theorem keys_union (d d' : Dict β) (hd' : WF d') :
    keys (union d d') = keys d ++ (keys d').filter (· ∉ keys d) := by
  unfold union
  induction d' generalizing d with
  | nil => simp
  | cons p d' ih =>
    rw [wf_cons] at hd'
    rw [List.foldl_cons, ih _ hd'.2, keys_set]
    split
    · next h => simp [h]
    · next h =>
      simp only [keys_cons, List.filter_cons, h, List.append_assoc, not_false_eq_true,
        decide_true, if_true, List.singleton_append]
      congr 2
      apply List.filter_congr
      intro x hx
      have : x ≠ p.1 := by rintro rfl; exact hd'.1 hx
      simp [this]

/-- Two dictionaries are the same mapping. -/
def Same (d d' : Dict β) : Prop := ∀ x, get? d x = get? d' x

theorem length_eq_of_keys_subset {l l' : List String} (h : l.Nodup) (hs : l ⊆ l') (hl : l'.length ≤ l.length) :
    ∀ x ∈ l', x ∈ l := by
  intro x hx
  apply Decidable.byContradiction
  intro hn
  have h1 : (x :: l).Nodup := by simp [hn, h]
  have h2 : (x :: l) ⊆ l' := by
    intro y hy
    rcases List.mem_cons.1 hy with rfl | hy
    · exact hx
    · exact hs hy
  have := (List.subperm_of_subset h1 h2).length_le
  simp at this
  omega

theorem eqv_iff [DecidableEq β] {d d' : Dict β} (hd : WF d) (hd' : WF d') :
    eqv d d' = true ↔ Same d d' := by
  unfold eqv Same
  simp only [Bool.and_eq_true, beq_iff_eq, List.all_eq_true]
  constructor
  · rintro ⟨hl, ha⟩ x
    cases hx : get? d x with
    | some v => rw [ha (x, v) (mem_of_get? hx)]
    | none =>
      rw [get?_eq_none] at hx
      symm
      rw [get?_eq_none]
      intro hx'
      apply hx
      refine length_eq_of_keys_subset hd ?_ (by simp [hl]) x hx'
      intro y hy
      obtain ⟨v, hv⟩ := exists_get?_of_mem hy
      exact mem_keys_of_get? (ha (y, v) (mem_of_get? hv))
  · intro h
    refine ⟨?_, fun p hp => by rw [← h, get?_of_mem hd hp]⟩
    have k1 : keys d ⊆ keys d' := fun x hx => by
      rw [← get?_isSome] at *; rwa [← h]
    have k2 : keys d' ⊆ keys d := fun x hx => by
      rw [← get?_isSome] at *; rwa [h]
    have l1 := (List.subperm_of_subset hd k1).length_le
    have l2 := (List.subperm_of_subset hd' k2).length_le
    simp at l1 l2
    omega

end Dict
end NA
