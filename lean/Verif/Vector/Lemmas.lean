import Verif.Vector.Basic

/-!
# Lemmas about flattening vectors
-/

namespace NA
open Dict

theorem union_nil_of_wf {β : Type} {d : Dict β} (h : WF d) : union [] d = d := by
  have key : ∀ (d acc : Dict β), WF (acc ++ d) → union acc d = acc ++ d := by
    intro d
    induction d with
    | nil => intro acc _; simp [union]
    | cons p d ih =>
      intro acc hw
      have h1 : p.1 ∉ keys acc := by
        intro hm
        unfold WF at hw
        rw [keys_append, List.nodup_append] at hw
        exact hw.2.2 p.1 hm p.1 (by simp) rfl
      have h2 : union acc (p :: d) = union (Dict.set acc p.1 p.2) d := rfl
      rw [h2, set_of_not_mem h1]
      have h3 := ih (acc ++ [(p.1, p.2)]) (by simpa using hw)
      simpa using h3
  simpa using key d [] (by simpa using h)

namespace Comp
variable {α β γ δ : Type}

theorem toList_dot (k s : String) : (k ++ "." ++ s).toList = k.toList ++ '.' :: s.toList := by
  simp

theorem dot_inj {k s s' : String} (h : k ++ "." ++ s = k ++ "." ++ s') : s = s' := by
  have := congrArg String.toList h
  rw [toList_dot, toList_dot] at this
  have := List.append_cancel_left this
  injection this with _ h
  exact String.toList_inj.1 h

/-- The first name in a dotted name. -/
def head (q : String) : List Char := q.toList.takeWhile (· ≠ '.')

theorem head_dot {k s : String} (h : '.' ∉ k.toList) : head (k ++ "." ++ s) = k.toList := by
  unfold head
  rw [toList_dot, List.takeWhile_append_of_pos (by
    intro a ha
    simp only [decide_not, Bool.not_eq_eq_eq_not, Bool.not_true, decide_eq_false_iff_not]
    rintro rfl
    exact h ha)]
  simp

theorem head_self {k : String} (h : '.' ∉ k.toList) : head k = k.toList := by
  unfold head
  have := List.takeWhile_append_of_pos (p := (· ≠ '.')) (l₁ := k.toList) (l₂ := []) (by
    intro a ha
    simp only [decide_not, Bool.not_eq_eq_eq_not, Bool.not_true, decide_eq_false_iff_not]
    rintro rfl
    exact h ha)
  simpa using this

theorem namedL_iff {cs : List (String × Comp α)} :
    NamedL cs ↔ ∀ p ∈ cs, '.' ∉ p.1.toList ∧ p.2.Named := by
  induction cs with
  | nil => simp [NamedL]
  | cons p l ih =>
    obtain ⟨k, c⟩ := p
    simp only [NamedL, ih, List.mem_cons, forall_eq_or_imp]
    tauto

/-! ### The keys of `cartesian_nd` -/

theorem keys_map_dot (k : String) (d : Dict α) :
    keys (d.map (fun p => (k ++ "." ++ p.1, p.2))) = (keys d).map (fun q => k ++ "." ++ q) := by
  simp [keys, List.map_map, Function.comp_def]

theorem wf_map_dot {k : String} {d : Dict α} (h : WF d) :
    WF (d.map (fun p => (k ++ "." ++ p.1, p.2))) := by
  unfold WF
  rw [keys_map_dot]
  exact h.map (fun _ _ h => dot_inj h)

theorem wf_entries_aux {cs : List (String × Comp α)} (hw : WF cs) (hn : NamedL cs)
    (ih : ∀ p ∈ cs, p.2.Named → ∀ k, '.' ∉ k.toList →
      WF (p.2.entriesOf k) ∧ ∀ q ∈ keys (p.2.entriesOf k), head q = k.toList) :
    WF (entries cs) ∧ ∀ q ∈ keys (entries cs), ∃ k ∈ keys cs, head q = k.toList := by
  induction cs with
  | nil => simp [entries, WF]
  | cons p l ih2 =>
    obtain ⟨k, c⟩ := p
    obtain ⟨h1, h2⟩ := wf_cons.1 hw
    obtain ⟨h3, h4, h5⟩ := hn
    obtain ⟨h6, h7⟩ := ih2 h2 h5 (fun p hp => ih p (by simp [hp]))
    obtain ⟨h8, h9⟩ := ih (k, c) (by simp) h4 k h3
    unfold entries
    refine ⟨?_, ?_⟩
    · unfold WF
      rw [keys_append, List.nodup_append]
      refine ⟨h8, h6, ?_⟩
      rintro q hq q' hq' rfl
      obtain ⟨k', hk', hh⟩ := h7 q hq'
      rw [h9 q hq] at hh
      rw [String.toList_inj] at hh
      subst hh
      exact h1 hk'
    · intro q hq
      rw [keys_append, List.mem_append] at hq
      rcases hq with hq | hq
      · exact ⟨k, by simp, h9 q hq⟩
      · obtain ⟨k', hk', hh⟩ := h7 q hq
        exact ⟨k', by simp [hk'], hh⟩

theorem wf_entriesOf : ∀ (c : Comp α), c.Named → ∀ k, '.' ∉ k.toList →
    WF (c.entriesOf k) ∧ ∀ q ∈ keys (c.entriesOf k), head q = k.toList := by
  refine ind ?_ ?_
  · intro a _ k hk
    simp [entriesOf, WF, head_self hk]
  · intro cls cs ih hn k hk
    obtain ⟨h1, h2⟩ := wf_entries_aux hn.1 hn.2 ih
    unfold entriesOf
    rw [union_nil_of_wf h1]
    refine ⟨wf_map_dot h1, ?_⟩
    intro q hq
    rw [keys_map_dot, List.mem_map] at hq
    obtain ⟨s, _, rfl⟩ := hq
    exact head_dot hk

theorem wf_entries {cs : List (String × Comp α)} (hw : WF cs) (hn : NamedL cs) : WF (entries cs) :=
  (wf_entries_aux hw hn (fun p _ => wf_entriesOf p.2)).1

/-- Without dots in the names there are no collisions. -/
theorem cartesianNd_eq {cs : List (String × Comp α)} (hw : WF cs) (hn : NamedL cs) :
    cartesianNd cs = entries cs := union_nil_of_wf (wf_entries hw hn)

theorem wf_cartesianNd (cs : List (String × Comp α)) : WF (cartesianNd cs) :=
  wf_union wf_nil _

theorem entriesOf_node {cls : String} {cs : List (String × Comp α)} (hw : WF cs) (hn : NamedL cs)
    (k : String) :
    (node cls cs).entriesOf k = (entries cs).map (fun p => (k ++ "." ++ p.1, p.2)) := by
  rw [entriesOf, union_nil_of_wf (wf_entries hw hn)]

/-! ### Reading back -/

theorem startsWith_dot (k p : String) : startsWith k (p ++ ".") = true ↔ ∃ s, k = p ++ "." ++ s := by
  unfold startsWith
  rw [List.isPrefixOf_iff_prefix]
  constructor
  · rintro ⟨t, ht⟩
    refine ⟨String.ofList t, ?_⟩
    rw [← String.toList_inj, String.toList_append, String.toList_ofList]
    exact ht.symm
  · rintro ⟨s, rfl⟩
    exact ⟨s.toList, by simp⟩

theorem strip_dot (p s : String) :
    String.ofList ((p ++ "." ++ s).toList.drop (p ++ ".").length) = s := by
  rw [← String.toList_inj, String.toList_ofList, String.toList_append]
  rw [show (p ++ ".").length = (p ++ ".").toList.length from (String.length_toList).symm]
  simp

theorem get?_filterMap_dot (c q : String) (nd : Dict β) (h : WF nd) :
    WF ((nd.filter (fun p => startsWith p.1 (c ++ "."))).map
      (fun p => (String.ofList (p.1.toList.drop (c ++ ".").length), p.2))) ∧
    get? ((nd.filter (fun p => startsWith p.1 (c ++ "."))).map
      (fun p => (String.ofList (p.1.toList.drop (c ++ ".").length), p.2))) q = get? nd (c ++ "." ++ q) := by
  induction nd with
  | nil => simp [WF]
  | cons p l ih =>
    obtain ⟨h1, h2⟩ := wf_cons.1 h
    obtain ⟨ih1, ih2⟩ := ih h2
    rw [List.filter_cons, get?_cons]
    by_cases hs : startsWith p.1 (c ++ ".") = true
    · rw [if_pos hs, List.map_cons, get?_cons]
      obtain ⟨s, hs'⟩ := (startsWith_dot _ _).1 hs
      rw [hs', strip_dot]
      refine ⟨?_, ?_⟩
      · rw [wf_cons]
        refine ⟨?_, ih1⟩
        intro hm
        simp only [keys, List.map_map, List.mem_map, Function.comp, List.mem_filter] at hm
        obtain ⟨p', ⟨hp', hs2⟩, he⟩ := hm
        obtain ⟨s', hs2'⟩ := (startsWith_dot _ _).1 hs2
        rw [hs2', strip_dot] at he
        apply h1
        rw [hs', ← he, ← hs2']
        exact List.mem_map.2 ⟨p', hp', rfl⟩
      · by_cases he : s = q
        · rw [if_pos he, if_pos (by rw [he])]
        · rw [if_neg he, if_neg (fun h => he (dot_inj h)), ih2]
    · rw [if_neg hs]
      refine ⟨ih1, ?_⟩
      rw [ih2, if_neg]
      intro he
      exact hs ((startsWith_dot _ _).2 ⟨q, he⟩)

theorem get?_subDict (c q : String) {nd : Dict β} (h : WF nd) :
    get? (subDict c nd) q = get? nd (c ++ "." ++ q) := by
  unfold subDict
  obtain ⟨h1, h2⟩ := get?_filterMap_dot c q nd h
  rw [union_nil_of_wf h1, h2]

theorem wf_subDict (c : String) (nd : Dict β) : WF (subDict c nd) := wf_union wf_nil _

mutual
/-- Apply a function to each leaf and its dotted name. -/
def mapKey (g : String → γ → R δ) (k : String) : Comp γ → R (Comp δ)
  | .leaf l => do .ok (.leaf (← g k l))
  | .node cls cs => do .ok (.node cls (← mapKeyL (fun q => g (k ++ "." ++ q)) cs))
/-- ... for all components -/
def mapKeyL (g : String → γ → R δ) : List (String × Comp γ) → R (List (String × Comp δ))
  | [] => .ok []
  | (k, c) :: l => do
    let c' ← c.mapKey g k
    .ok ((k, c') :: (← mapKeyL g l))
end

/-- What `from_cartesian_nd` does with the leaf of dotted name `q`. -/
def readNd (h : γ → β → R δ) (nd : Dict β) (q : String) (l : γ) : R δ :=
  match get? nd q with
  | none => .error .keyError
  | some v => h l v

theorem fromNd_eq (h : γ → β → R δ) : ∀ (like : Comp γ) (k : String) (nd : Dict β), WF nd →
    like.fromNd h k nd = like.mapKey (readNd h nd) k := by
  refine ind ?_ ?_
  · intro l k nd _
    unfold fromNd mapKey readNd
    cases get? nd k <;> rfl
  · intro cls cs ih k nd hnd
    unfold fromNd mapKey
    have : ∀ (cs : List (String × Comp γ)) (g : String → γ → R δ) (nd : Dict β), WF nd →
        (∀ q l, readNd h nd q l = g q l) →
        (∀ p ∈ cs, ∀ (k : String) (nd : Dict β), WF nd → p.2.fromNd h k nd = p.2.mapKey (readNd h nd) k) →
        fromNdL h cs nd = mapKeyL g cs := by
      intro cs
      induction cs with
      | nil => intros; rfl
      | cons p l ih2 =>
        intro g nd hnd hg hp
        obtain ⟨k, c⟩ := p
        unfold fromNdL mapKeyL
        rw [hp (k, c) (by simp) k nd hnd, ih2 g nd hnd hg (fun p h => hp p (by simp [h]))]
        rw [show readNd h nd = g from funext fun q => funext fun l => hg q l]
    rw [this cs (fun q => readNd h nd (k ++ "." ++ q)) (subDict k nd) (wf_subDict _ _) (by
      intro q l
      unfold readNd
      rw [get?_subDict _ _ hnd]) (fun p hp => ih p hp)]

theorem fromNdL_eq (h : γ → β → R δ) (cs : List (String × Comp γ)) {nd : Dict β} (hnd : WF nd) :
    fromNdL h cs nd = mapKeyL (readNd h nd) cs := by
  induction cs with
  | nil => rfl
  | cons p l ih =>
    obtain ⟨k, c⟩ := p
    unfold fromNdL mapKeyL
    rw [fromNd_eq h c k nd hnd, ih]

mutual
/-- A vector with a function applied to all leaves. -/
def map (f : γ → δ) : Comp γ → Comp δ
  | .leaf a => .leaf (f a)
  | .node cls cs => .node cls (mapL f cs)
/-- ... for all components -/
def mapL (f : γ → δ) : List (String × Comp γ) → List (String × Comp δ)
  | [] => []
  | (k, c) :: l => (k, c.map f) :: mapL f l
end

/-- The types and names of a vector, without its values. -/
def skel (c : Comp γ) : Comp Unit := c.map (fun _ => ())

/-- ... of all components -/
def skelL (cs : List (String × Comp γ)) : List (String × Comp Unit) := mapL (fun _ => ()) cs

theorem skel_node (cls : String) (cs : List (String × Comp γ)) :
    (node cls cs).skel = node cls (skelL cs) := rfl

theorem mapL_eq (f : γ → δ) (cs : List (String × Comp γ)) :
    mapL f cs = cs.map (fun p => (p.1, p.2.map f)) := by
  induction cs with
  | nil => rfl
  | cons p l ih => obtain ⟨k, c⟩ := p; simp [mapL, ih]

theorem keys_mapL (f : γ → δ) (cs : List (String × Comp γ)) : keys (mapL f cs) = keys cs := by
  rw [mapL_eq]; simp [keys, List.map_map, Function.comp_def]

theorem keys_of_skelL {cs : List (String × Comp γ)} {cs' : List (String × Comp δ)}
    (h : skelL cs = skelL cs') : keys cs = keys cs' := by
  rw [← keys_mapL (fun _ => ()) cs, ← keys_mapL (fun _ => ()) cs']
  exact congrArg _ h

/-- An entry and the result of a function on it. -/
def Step (g : String → γ → R δ) (p : String × γ) (p' : String × δ) : Prop :=
  p.1 = p'.1 ∧ g p.1 p.2 = .ok p'.2

theorem keys_of_steps {g : String → γ → R δ} {d : Dict γ} {d' : Dict δ}
    (h : List.Forall₂ (Step g) d d') : keys d' = keys d := by
  induction h with
  | nil => rfl
  | cons h1 _ ih => simp [h1.1, ih]

theorem get?_of_steps {g : String → γ → R δ} {d : Dict γ} {d' : Dict δ}
    (h : List.Forall₂ (Step g) d d') (q : String) :
    (get? d q = none ∧ get? d' q = none) ∨ ∃ l v, get? d q = some l ∧ get? d' q = some v ∧ g q l = .ok v := by
  induction h with
  | nil => simp
  | @cons p p' l l' h1 _ ih =>
    rw [get?_cons, get?_cons]
    by_cases hp : p.1 = q
    · rw [if_pos hp, if_pos (h1.1 ▸ hp)]
      right
      exact ⟨_, _, rfl, rfl, hp ▸ h1.2⟩
    · rw [if_neg hp, if_neg (h1.1 ▸ hp)]
      exact ih

theorem steps_unique {g : String → γ → R δ} {d : Dict γ} {d1 d2 : Dict δ}
    (h1 : List.Forall₂ (Step g) d d1) (h2 : List.Forall₂ (Step g) d d2) : d1 = d2 := by
  induction h1 generalizing d2 with
  | nil => cases h2; rfl
  | @cons p p' l l' h _ ih =>
    cases h2 with
    | @cons _ q _ m h' ht =>
      rw [ih ht]
      have h3 := h.2
      rw [h'.2] at h3
      injection h3 with h3
      obtain ⟨a, b⟩ := p'
      obtain ⟨a', b'⟩ := q
      simp only at h3
      rw [show a = a' from h.1.symm.trans h'.1, h3]

theorem mapKeyL_ok_aux {cs : List (String × Comp γ)}
    (ih : ∀ p ∈ cs, p.2.Named → ∀ (k : String) (g : String → γ → R δ),
      (∀ q ∈ p.2.entriesOf k, ∃ d, g q.1 q.2 = .ok d) →
      ∃ r, p.2.mapKey g k = .ok r ∧ r.Named ∧ r.skel = p.2.skel ∧
        List.Forall₂ (Step g) (p.2.entriesOf k) (r.entriesOf k))
    (hn : NamedL cs) (g : String → γ → R δ)
    (h : ∀ p ∈ entries cs, ∃ d, g p.1 p.2 = .ok d) :
    ∃ r, mapKeyL g cs = .ok r ∧ NamedL r ∧ skelL r = skelL cs ∧
      List.Forall₂ (Step g) (entries cs) (entries r) := by
  induction cs with
  | nil => exact ⟨[], rfl, trivial, rfl, .nil⟩
  | cons p l ih2 =>
    obtain ⟨k, c⟩ := p
    obtain ⟨h1, h2, h3⟩ := hn
    unfold entries at h
    obtain ⟨r1, h4, h5, h6, h7⟩ := ih (k, c) (by simp) h2 k g (fun q hq => h q (by simp [hq]))
    obtain ⟨r2, h8, h9, h10, h11⟩ := ih2 (fun p hp => ih p (by simp [hp])) h3 (fun q hq => h q (by simp [hq]))
    unfold mapKeyL
    rw [h4, h8]
    refine ⟨(k, r1) :: r2, rfl, ⟨h1, h5, h9⟩, ?_, ?_⟩
    · unfold skelL at h10 ⊢
      unfold skel at h6
      simp only at h6
      simp [mapL, h6, h10]
    · simp only [entries]
      exact List.rel_append h7 h11

theorem skel_length {c : Comp γ} {c' : Comp δ} (h : c.skel = c'.skel) (hn : c.Named) (hn' : c'.Named)
    (k k' : String) : (c.entriesOf k).length = (c'.entriesOf k').length := by
  revert c' k k'
  revert hn
  revert c
  suffices key : ∀ c : Comp γ, c.Named → ∀ {c' : Comp δ}, c.skel = c'.skel → c'.Named → ∀ k k' : String,
      (c.entriesOf k).length = (c'.entriesOf k').length from fun {c} => key c
  refine ind ?_ ?_
  · intro a _ c' hs hn' k k'
    cases c' with
    | leaf b => rfl
    | node cls cs => simp [skel, map] at hs
  · intro cls cs ih hn c' hs hn' k k'
    cases c' with
    | leaf b => simp [skel, map] at hs
    | node cls' cs' =>
      simp only [skel_node, node.injEq] at hs
      obtain ⟨rfl, hs⟩ := hs
      rw [entriesOf_node hn.1 hn.2, entriesOf_node hn'.1 hn'.2, List.length_map, List.length_map]
      have h1 := hn.2
      have h2 := hn'.2
      clear hn hn'
      induction cs generalizing cs' with
      | nil =>
        cases cs' with
        | nil => rfl
        | cons p l => simp [skelL, mapL_eq] at hs
      | cons p l ih2 =>
        cases cs' with
        | nil => simp [skelL, mapL_eq] at hs
        | cons p' l' =>
          obtain ⟨k, c⟩ := p
          obtain ⟨k', c'⟩ := p'
          simp only [skelL, mapL, List.cons.injEq, Prod.mk.injEq] at hs
          simp only [entries, List.length_append]
          rw [ih (k, c) (by simp) h1.2.1 hs.1.2 h2.2.1 k k', ih2 (fun p hp => ih p (by simp [hp])) _ hs.2 h1.2.2 h2.2.2]

theorem ext_entriesL_aux {cs cs' : List (String × Comp α)}
    (ih : ∀ p ∈ cs, ∀ c' : Comp α, p.2.Named → c'.Named → p.2.skel = c'.skel → ∀ k k' : String,
      (p.2.entriesOf k).map Prod.snd = (c'.entriesOf k').map Prod.snd → p.2 = c')
    (hn : NamedL cs) (hn' : NamedL cs') (hs : skelL cs = skelL cs')
    (h : (entries cs).map Prod.snd = (entries cs').map Prod.snd) : cs = cs' := by
  induction cs generalizing cs' with
  | nil =>
    cases cs' with
    | nil => rfl
    | cons p l => simp [skelL, mapL_eq] at hs
  | cons p l ih2 =>
    cases cs' with
    | nil => simp [skelL, mapL_eq] at hs
    | cons p' l' =>
      obtain ⟨k, c⟩ := p
      obtain ⟨k', c'⟩ := p'
      simp only [skelL, mapL, List.cons.injEq, Prod.mk.injEq] at hs
      obtain ⟨⟨rfl, hs1⟩, hs2⟩ := hs
      simp only [entries, List.map_append] at h
      have hl := skel_length (c := c) (c' := c') hs1 hn.2.1 hn'.2.1 k k
      obtain ⟨h1, h2⟩ := List.append_inj h (by simpa using hl)
      have hc : c = c' := ih (k, c) (by simp) c' hn.2.1 hn'.2.1 hs1 k k h1
      rw [hc]
      rw [ih2 (fun p hp => ih p (by simp [hp])) hn.2.2 hn'.2.2 hs2 h2]

theorem steps_map_dot {g : String → γ → R δ} {k : String} {d : Dict γ} {d' : Dict δ}
    (h : List.Forall₂ (Step (fun q => g (k ++ "." ++ q))) d d') :
    List.Forall₂ (Step g) (d.map (fun p => (k ++ "." ++ p.1, p.2))) (d'.map (fun p => (k ++ "." ++ p.1, p.2))) := by
  induction h with
  | nil => exact .nil
  | cons h1 _ ih => exact .cons ⟨by simp [h1.1], by simpa [h1.1] using h1.2⟩ ih

/-- The effect of `mapKey` on names and entries, when the function succeeds on each leaf. -/
theorem mapKey_ok : ∀ (c : Comp γ), c.Named → ∀ (k : String) (g : String → γ → R δ),
    (∀ p ∈ c.entriesOf k, ∃ d, g p.1 p.2 = .ok d) →
    ∃ r, c.mapKey g k = .ok r ∧ r.Named ∧ r.skel = c.skel ∧
      List.Forall₂ (Step g) (c.entriesOf k) (r.entriesOf k) := by
  refine ind ?_ ?_
  · intro a _ k g h
    unfold mapKey
    obtain ⟨d, hd⟩ := h (k, a) (by simp [entriesOf])
    simp only at hd
    rw [hd]
    exact ⟨.leaf d, rfl, trivial, rfl, by
      simp only [entriesOf]
      exact .cons ⟨rfl, hd⟩ .nil⟩
  · intro cls cs ih hn k g h
    unfold mapKey
    rw [entriesOf_node hn.1 hn.2] at h
    obtain ⟨r, h1, h2, h3, h4⟩ := mapKeyL_ok_aux ih hn.2 (fun q => g (k ++ "." ++ q)) (by
      intro p hp
      exact h (k ++ "." ++ p.1, p.2) (List.mem_map.2 ⟨p, hp, rfl⟩))
    rw [h1]
    have hw : WF r := by unfold WF; rw [keys_of_skelL h3]; exact hn.1
    refine ⟨.node cls r, rfl, ⟨hw, h2⟩, by rw [skel_node, skel_node, h3], ?_⟩
    rw [entriesOf_node hw h2, entriesOf_node hn.1 hn.2]
    exact steps_map_dot h4

theorem mapKeyL_ok {cs : List (String × Comp γ)} (hn : NamedL cs) (g : String → γ → R δ)
    (h : ∀ p ∈ entries cs, ∃ d, g p.1 p.2 = .ok d) :
    ∃ r, mapKeyL g cs = .ok r ∧ NamedL r ∧ skelL r = skelL cs ∧
      List.Forall₂ (Step g) (entries cs) (entries r) :=
  mapKeyL_ok_aux (fun p _ => mapKey_ok p.2) hn g h

/-- If the function fails in one way only, and fails for some leaf, the whole fails in that way. -/
theorem mapKeyL_error_aux {cs : List (String × Comp γ)} {e : Err}
    (ih : ∀ p ∈ cs, p.2.Named → ∀ (k : String) (g : String → γ → R δ),
      (∀ q ∈ p.2.entriesOf k, ∀ e', g q.1 q.2 = .error e' → e' = e) →
      (∃ q ∈ p.2.entriesOf k, g q.1 q.2 = .error e) → p.2.mapKey g k = .error e)
    (hn : NamedL cs) (g : String → γ → R δ)
    (h : ∀ q ∈ entries cs, ∀ e', g q.1 q.2 = .error e' → e' = e)
    (hex : ∃ q ∈ entries cs, g q.1 q.2 = .error e) : mapKeyL g cs = .error e := by
  induction cs with
  | nil => simp [entries] at hex
  | cons p l ih2 =>
    obtain ⟨k, c⟩ := p
    obtain ⟨h1, h2, h3⟩ := hn
    unfold entries at h hex
    unfold mapKeyL
    by_cases hc : ∃ q ∈ c.entriesOf k, g q.1 q.2 = .error e
    · rw [ih (k, c) (by simp) h2 k g (fun q hq => h q (by simp [hq])) hc]
      rfl
    · have hl : ∃ q ∈ entries l, g q.1 q.2 = .error e := by
        obtain ⟨q, hq, hg⟩ := hex
        rw [List.mem_append] at hq
        rcases hq with hq | hq
        · exact absurd ⟨q, hq, hg⟩ hc
        · exact ⟨q, hq, hg⟩
      obtain ⟨r, hr, _⟩ := mapKey_ok c h2 k g (by
        intro q hq
        cases hg : g q.1 q.2 with
        | ok d => exact ⟨d, rfl⟩
        | error e' =>
          have := h q (by simp [hq]) e' hg
          subst this
          exact absurd ⟨q, hq, hg⟩ hc)
      rw [hr, ih2 (fun p hp => ih p (by simp [hp])) h3 (fun q hq => h q (by simp [hq])) hl]
      rfl

theorem mapKey_error {e : Err} : ∀ (c : Comp γ), c.Named → ∀ (k : String) (g : String → γ → R δ),
    (∀ q ∈ c.entriesOf k, ∀ e', g q.1 q.2 = .error e' → e' = e) →
    (∃ q ∈ c.entriesOf k, g q.1 q.2 = .error e) → c.mapKey g k = .error e := by
  refine ind ?_ ?_
  · rintro a _ k g h ⟨q, hq, hg⟩
    simp only [entriesOf, List.mem_singleton] at hq
    subst hq
    unfold mapKey
    simp only at hg
    rw [hg]; rfl
  · intro cls cs ih hn k g h hex
    unfold mapKey
    rw [entriesOf_node hn.1 hn.2] at h hex
    rw [mapKeyL_error_aux ih hn.2 (fun q => g (k ++ "." ++ q)) (by
      intro p hp
      exact h (k ++ "." ++ p.1, p.2) (List.mem_map.2 ⟨p, hp, rfl⟩)) (by
      obtain ⟨q, hq, hg⟩ := hex
      obtain ⟨p, hp, rfl⟩ := List.mem_map.1 hq
      exact ⟨p, hp, hg⟩)]
    rfl

theorem mapKeyL_error {cs : List (String × Comp γ)} (hn : NamedL cs) (g : String → γ → R δ) (e : Err)
    (h : ∀ q ∈ entries cs, ∀ e', g q.1 q.2 = .error e' → e' = e)
    (hex : ∃ q ∈ entries cs, g q.1 q.2 = .error e) : mapKeyL g cs = .error e :=
  mapKeyL_error_aux (fun p _ => mapKey_error p.2) hn g h hex

/-- A vector is determined by its names and its entries. -/
theorem ext_entries : ∀ (c c' : Comp α), c.Named → c'.Named → c.skel = c'.skel → ∀ k k' : String,
    (c.entriesOf k).map Prod.snd = (c'.entriesOf k').map Prod.snd → c = c' := by
  refine ind ?_ ?_
  · intro a c' _ _ hs k k' h
    cases c' with
    | leaf b => simp [entriesOf] at h; rw [h]
    | node cls cs => simp [skel, map] at hs
  · intro cls cs ih c' hn hn' hs k k' h
    cases c' with
    | leaf b => simp [skel, map] at hs
    | node cls' cs' =>
      simp only [skel_node, node.injEq] at hs
      obtain ⟨rfl, hs⟩ := hs
      rw [entriesOf_node hn.1 hn.2, entriesOf_node hn'.1 hn'.2, List.map_map, List.map_map] at h
      rw [ext_entriesL_aux ih hn.2 hn'.2 hs h]

theorem ext_entriesL {cs cs' : List (String × Comp α)} (hn : NamedL cs) (hn' : NamedL cs')
    (hs : skelL cs = skelL cs') (h : entries cs = entries cs') : cs = cs' :=
  ext_entriesL_aux (fun p _ => ext_entries p.2) hn hn' hs (congrArg _ h)

end Comp
end NA
