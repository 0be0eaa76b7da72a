import Verif.Matrix.Basic
import Verif.Vector.Lift
import Mathlib.Algebra.BigOperators.Group.Finset.Basic

/-! Lemmas about the matrix operations. -/

namespace NA
open Dict

/-- The operations on entries compute the operations of a ring on the values `val` of good entries. -/
structure Ops.Sound {α K : Type} [CommRing K] (o : Ops α) (dv : K → K → K) (good : α → Prop) (val : α → K) : Prop where
  zero : good o.zero ∧ val o.zero = 0
  one : good o.one ∧ val o.one = 1
  add : ∀ a b, good a → good b → ∃ c, o.add a b = .ok c ∧ good c ∧ val c = val a + val b
  sub : ∀ a b, good a → good b → ∃ c, o.sub a b = .ok c ∧ good c ∧ val c = val a - val b
  mul : ∀ a b, good a → good b → ∃ c, o.mul a b = .ok c ∧ good c ∧ val c = val a * val b
  div : ∀ a b, good a → good b → ∃ c, o.div a b = .ok c ∧ good c ∧ val c = dv (val a) (val b)
  neg : ∀ a, good a → ∃ c, o.neg a = .ok c ∧ good c ∧ val c = - val a
  matmul : ∀ a b, good a → good b → ∃ c, o.matmul a b = .ok c ∧ good c ∧ val c = val a * val b

/-- Numbers compute with numbers. -/
theorem Ops.num_sound {K : Type} [CommRing K] (dv : K → K → K) :
    (Ops.num dv).Sound dv (fun _ => True) id := by
  constructor <;> simp [Ops.num]

namespace Comp
variable {α β γ K : Type}

/-! ### Specification vocabulary -/

/-- The entry with a flattened name. -/
def coef (v : Comp α) (c : String) : Option α :=
  match v with
  | .leaf _ => none
  | .node _ cs => get? (cartesianNd cs) c

/-- The entry of a matrix with given flattened names of the row and of the column: `entries[r, c]`. -/
def entry (rows : List (String × Comp (Comp α))) (r c : String) : Option α :=
  (get? (cartesianNd rows) r).bind (fun row => row.coef c)

/-- The value of an entry. -/
def vval [Zero K] (val : α → K) (v : Comp α) (c : String) : K := ((v.coef c).map val).getD 0

/-- The value of an entry of a matrix. -/
def mval [Zero K] (val : α → K) (rows : List (String × Comp (Comp α))) (r c : String) : K :=
  ((entry rows r c).map val).getD 0

mutual
/-- No block is empty. -/
def NoEmpty : Comp α → Prop
  | .leaf _ => True
  | .node _ cs => cs ≠ [] ∧ NoEmptyL cs
/-- ... for all components -/
def NoEmptyL : List (String × Comp α) → Prop
  | [] => True
  | (_, c) :: l => c.NoEmpty ∧ NoEmptyL l
end

/-- A vector without dots in its names and without empty blocks, whose flattened names are `C` and whose entries are good. -/
def IsVec (good : α → Prop) (C : Finset String) (v : Comp α) : Prop :=
  ∃ cls cs, v = .node cls cs ∧ WF cs ∧ NamedL cs ∧ (keys (cartesianNd cs)).toFinset = C ∧
    (∀ p ∈ cartesianNd cs, good p.2) ∧ cs ≠ [] ∧ NoEmptyL cs

/-- A matrix with flattened row names `R`, column names `C` and good entries. -/
def IsMat (good : α → Prop) (R C : Finset String) (rows : List (String × Comp (Comp α))) : Prop :=
  WF rows ∧ NamedL rows ∧ (rows ≠ [] ∧ NoEmptyL rows) ∧ (keys (cartesianNd rows)).toFinset = R ∧
    ∀ p ∈ cartesianNd rows, IsVec good C p.2

/-- The layout of a matrix: classes and names, without entries. -/
def layout (rows : List (String × Comp (Comp α))) : List (String × Comp (Comp Unit)) := mapL skel rows

/-! ### General lemmas -/

theorem sameKeys_iff {d : Dict α} {d' : Dict β} :
    sameKeys d d' = true ↔ (keys d).toFinset = (keys d').toFinset := by
  unfold sameKeys
  simp only [Bool.and_eq_true, List.all_eq_true, decide_eq_true_eq]
  rw [Finset.ext_iff]
  simp only [List.mem_toFinset]
  exact ⟨fun h a => ⟨h.1 a, h.2 a⟩, fun h => ⟨fun a => (h a).1, fun a => (h a).2⟩⟩

theorem mapDict_ok {d : Dict β} {g : String × β → R γ} (h : ∀ p ∈ d, ∃ v, g p = .ok v) :
    ∃ d' : Dict γ, d.mapM (fun p => do .ok (p.1, ← g p)) = .ok d' ∧
      List.Forall₂ (Step (fun k b => g (k, b))) d d' := by
  induction d with
  | nil => exact ⟨[], rfl, .nil⟩
  | cons p d ih =>
    obtain ⟨v, hv⟩ := h p (by simp)
    obtain ⟨d', h1, h2⟩ := ih (fun q hq => h q (by simp [hq]))
    refine ⟨(p.1, v) :: d', ?_, .cons ⟨rfl, hv⟩ h2⟩
    rw [List.mapM_cons, h1, hv]
    rfl

theorem wf_of_keys {d : Dict β} {d' : Dict γ} (h : keys d' = keys d) (hw : WF d) : WF d' := by
  unfold WF at *; rw [h]; exact hw

theorem values_entriesOf : ∀ (c : Comp α), c.Named → ∀ k, values (c.entriesOf k) = c.leaves := by
  refine ind ?_ ?_
  · intro a _ k; simp [entriesOf, leaves]
  · intro cls cs ih hn k
    rw [entriesOf_node hn.1 hn.2, leaves]
    have : values ((entries cs).map (fun p => (k ++ "." ++ p.1, p.2))) = values (entries cs) := by
      simp [values, List.map_map, Function.comp_def]
    rw [this]
    have h2 := hn.2
    clear hn this
    induction cs with
    | nil => rfl
    | cons p l ih2 =>
      obtain ⟨k', c⟩ := p
      have := ih2 (fun p hp => ih p (by simp [hp])) h2.2.2
      have h3 := ih (k', c) (by simp) h2.2.1 k'
      simp only [values, entries, leavesL, List.map_append] at *
      rw [h3, this]

theorem values_entries {cs : List (String × Comp α)} (hn : NamedL cs) : values (entries cs) = leavesL cs := by
  induction cs with
  | nil => rfl
  | cons p l ih =>
    obtain ⟨k', c⟩ := p
    have := ih hn.2.2
    have h3 := values_entriesOf c hn.2.1 k'
    simp only [values, entries, leavesL, List.map_append] at *
    rw [h3, this]

theorem values_cartesianNd {cs : List (String × Comp α)} (hw : WF cs) (hn : NamedL cs) :
    values (cartesianNd cs) = leavesL cs := by
  rw [cartesianNd_eq hw hn, values_entries hn]

theorem leaves_ne_nil_of_noEmpty : ∀ (c : Comp α), c.NoEmpty → c.leaves ≠ [] := by
  refine ind ?_ ?_
  · intro a _; simp [leaves]
  · intro cls cs ih h
    cases cs with
    | nil => exact absurd rfl h.1
    | cons p l =>
      obtain ⟨k, c⟩ := p
      simp only [leaves, leavesL]
      intro h'
      exact ih (k, c) (by simp) h.2.1 (List.append_eq_nil_iff.1 h').1

theorem isConsistent_ok {good : α → Prop} {C : Finset String} {cs : List (String × Comp (Comp α))}
    (hw : WF cs) (hn : NamedL cs) (hne : leavesL cs ≠ []) (h : ∀ row ∈ leavesL cs, IsVec good C row) :
    isConsistent cs = .ok true := by
  unfold isConsistent
  have hv := values_cartesianNd hw hn
  split
  · next h0 => rw [h0] at hv; exact absurd hv.symm hne
  · next k row0 rest h0 =>
    congr 1
    rw [List.all_eq_true]
    intro p hp
    rw [h0] at hv
    have h1 : row0 ∈ leavesL cs := by rw [← hv]; simp
    have h2 : p.2 ∈ leavesL cs := by
      rw [← hv]
      simp only [values_cons, List.mem_cons]
      right
      exact List.mem_map.2 ⟨p, hp, rfl⟩
    obtain ⟨cls, cs1, e1, _, _, h3, _⟩ := h _ h1
    obtain ⟨cls', cs2, e2, _, _, h4, _⟩ := h _ h2
    rw [e1, e2]
    simp only [sameRow]
    rw [sameKeys_iff, h3, h4]

theorem rowPrototype_ok {good : α → Prop} {C : Finset String} : ∀ (c : Comp (Comp α)), c.Named → c.NoEmpty →
    (∀ row ∈ c.leaves, IsVec good C row) → ∃ row, c.rowPrototype = .ok row ∧ c.leaves.head? = some row := by
  refine ind ?_ ?_
  · intro row _ _ _
    exact ⟨row, rfl, rfl⟩
  · intro cls cs ih hn he h
    cases cs with
    | nil => exact absurd rfl he.1
    | cons p l =>
      obtain ⟨k, c⟩ := p
      have hc := isConsistent_ok hn.1 hn.2 (leaves_ne_nil_of_noEmpty (.node cls ((k, c) :: l)) he) h
      obtain ⟨row, h1, h2⟩ := ih (k, c) (by simp) hn.2.2.1 he.2.1 (fun r hr => h r (by
        simp only [leaves, leavesL, List.mem_append]; exact .inl hr))
      refine ⟨row, ?_, ?_⟩
      · simp only [rowPrototype, rowPrototypeL, hc]
        exact h1
      · simp only [leaves, leavesL]
        simp only at h2
        rw [List.head?_append, h2]
        rfl

theorem IsMat.leaves {good : α → Prop} {R C : Finset String} {rows : List (String × Comp (Comp α))}
    (h : IsMat good R C rows) : ∀ row ∈ leavesL rows, IsVec good C row := by
  intro row hr
  rw [← values_cartesianNd h.1 h.2.1] at hr
  obtain ⟨p, hp, rfl⟩ := List.mem_map.1 hr
  exact h.2.2.2.2 p hp

theorem IsMat.consistent {good : α → Prop} {R C : Finset String} {rows : List (String × Comp (Comp α))}
    (h : IsMat good R C rows) : isConsistent rows = .ok true :=
  isConsistent_ok h.1 h.2.1 (leaves_ne_nil_of_noEmpty (.node "" rows) ⟨h.2.2.1.1, h.2.2.1.2⟩) h.leaves

/-- The row prototype is the first row. -/
theorem IsMat.proto {good : α → Prop} {R C : Finset String} {rows : List (String × Comp (Comp α))}
    (h : IsMat good R C rows) : ∃ row, rowPrototypeL rows = .ok row ∧ IsVec good C row ∧
      (leavesL rows).head? = some row := by
  obtain ⟨row, h1, h2⟩ := rowPrototype_ok (good := good) (C := C) (.node "" rows) ⟨h.1, h.2.1⟩ h.2.2.1 h.leaves
  exact ⟨row, h1, h.leaves row (List.mem_of_head? h2), h2⟩

theorem coef_of_isVec {good : α → Prop} {C : Finset String} {v : Comp α} (h : IsVec good C v) :
    (∀ c ∈ C, ∃ a, v.coef c = some a ∧ good a) ∧ ∀ c ∉ C, v.coef c = none := by
  obtain ⟨cls, cs, rfl, hw, hn, h1, h2, -⟩ := h
  refine ⟨fun c hc => ?_, fun c hc => ?_⟩
  · rw [← h1, List.mem_toFinset] at hc
    obtain ⟨a, ha⟩ := exists_get?_of_mem hc
    exact ⟨a, ha, h2 _ (mem_of_get? ha)⟩
  · rw [← h1, List.mem_toFinset] at hc
    exact get?_eq_none.2 hc

theorem vval_of_coef [Zero K] {val : α → K} {v : Comp α} {c : String} {a : α} (h : v.coef c = some a) :
    v.vval val c = val a := by unfold vval; rw [h]; rfl

theorem row_of_isMat {good : α → Prop} {R C : Finset String} {rows : List (String × Comp (Comp α))}
    (h : IsMat good R C rows) :
    (∀ r ∈ R, ∃ row, get? (cartesianNd rows) r = some row ∧ IsVec good C row) ∧
    ∀ r ∉ R, get? (cartesianNd rows) r = none := by
  obtain ⟨_, _, _, h1, h2⟩ := h
  refine ⟨fun r hr => ?_, fun r hr => ?_⟩
  · rw [← h1, List.mem_toFinset] at hr
    obtain ⟨row, hrow⟩ := exists_get?_of_mem hr
    exact ⟨row, hrow, h2 _ (mem_of_get? hrow)⟩
  · rw [← h1, List.mem_toFinset] at hr
    exact get?_eq_none.2 hr

theorem mval_of_row [Zero K] {val : α → K} {rows : List (String × Comp (Comp α))} {r : String} {row : Comp α}
    (h : get? (cartesianNd rows) r = some row) (c : String) : mval val rows r c = row.vval val c := by
  unfold mval entry vval; rw [h]; rfl

theorem entry_of_isMat {good : α → Prop} {R C : Finset String} {rows : List (String × Comp (Comp α))}
    (h : IsMat good R C rows) {r c : String} (hr : r ∈ R) (hc : c ∈ C) :
    ∃ a, entry rows r c = some a ∧ good a := by
  obtain ⟨row, h1, h2⟩ := (row_of_isMat h).1 r hr
  obtain ⟨a, h3, h4⟩ := (coef_of_isVec h2).1 c hc
  exact ⟨a, by unfold entry; rw [h1]; exact h3, h4⟩

/-! ### Products -/

theorem dotFlat_ok [CommRing K] {o : Ops α} {dv : K → K → K} {good : α → Prop} {val : α → K}
    (ho : o.Sound dv good val) {d1 d2 : Dict α} (hw1 : WF d1)
    (hk : (keys d1).toFinset = (keys d2).toFinset) (h1 : ∀ p ∈ d1, good p.2) (h2 : ∀ p ∈ d2, good p.2) :
    ∃ s, dotFlat o d1 d2 = .ok s ∧ good s ∧
      val s = ∑ c ∈ (keys d1).toFinset, ((get? d1 c).map val).getD 0 * ((get? d2 c).map val).getD 0 := by
  unfold dotFlat
  rw [if_pos (sameKeys_iff.2 hk)]
  have hsub : ∀ k ∈ keys d1, k ∈ keys d2 := fun k hk' => by
    have : k ∈ (keys d1).toFinset := List.mem_toFinset.2 hk'
    rw [hk] at this
    exact List.mem_toFinset.1 this
  clear hk
  suffices key : ∀ acc, good acc → ∃ s, (d1.foldlM (fun acc p => match get? d2 p.1 with
      | none => .error .keyError
      | some b => do o.add acc (← o.matmul p.2 b)) acc : R α) = .ok s ∧ good s ∧
      val s = val acc + ∑ c ∈ (keys d1).toFinset, ((get? d1 c).map val).getD 0 * ((get? d2 c).map val).getD 0 by
    obtain ⟨s, h3, h4, h5⟩ := key o.zero ho.zero.1
    exact ⟨s, h3, h4, by rw [h5, ho.zero.2, zero_add]⟩
  induction d1 with
  | nil => intro acc ha; exact ⟨acc, rfl, ha, by simp⟩
  | cons p d ih =>
    intro acc ha
    obtain ⟨hp, hd⟩ := wf_cons.1 hw1
    obtain ⟨b, hb⟩ := exists_get?_of_mem (hsub p.1 (by simp))
    obtain ⟨m, hm1, hm2, hm3⟩ := ho.matmul p.2 b (h1 p (by simp)) (h2 _ (mem_of_get? hb))
    obtain ⟨acc', ha1, ha2, ha3⟩ := ho.add acc m ha hm2
    obtain ⟨s, h3, h4, h5⟩ := ih hd (fun q hq => h1 q (by simp [hq])) (fun k hk => hsub k (by simp [hk])) acc' ha2
    refine ⟨s, ?_, h4, ?_⟩
    · rw [List.foldlM_cons]
      simp only [hb, hm1, bind, Except.bind, ha1]
      exact h3
    · rw [h5, ha3, hm3, keys_cons, List.toFinset_cons, Finset.sum_insert (by simpa using hp)]
      have : ∑ c ∈ (keys d).toFinset, ((get? d c).map val).getD 0 * ((get? d2 c).map val).getD 0 =
          ∑ c ∈ (keys d).toFinset, ((get? (p :: d) c).map val).getD 0 * ((get? d2 c).map val).getD 0 := by
        refine Finset.sum_congr rfl (fun c hc => ?_)
        rw [get?_cons, if_neg]
        rintro rfl
        exact hp (List.mem_toFinset.1 hc)
      rw [this, get?_cons, if_pos rfl, hb]
      simp only [Option.map_some, Option.getD_some]
      ring

theorem dot_ok [CommRing K] {o : Ops α} {dv : K → K → K} {good : α → Prop} {val : α → K}
    (ho : o.Sound dv good val) {C : Finset String} {v w : Comp α} (hv : IsVec good C v) (hw : IsVec good C w) :
    ∃ s, dot o v w = .ok s ∧ good s ∧ val s = ∑ c ∈ C, v.vval val c * w.vval val c := by
  obtain ⟨cls, cs, rfl, h1, h2, h3, h4, -⟩ := hv
  obtain ⟨cls', cs', rfl, h1', h2', h3', h4', -⟩ := hw
  obtain ⟨s, h5, h6, h7⟩ := dotFlat_ok ho (wf_cartesianNd cs) (h3.trans h3'.symm) h4 h4'
  refine ⟨s, h5, h6, ?_⟩
  rw [h7, h3]
  rfl

/-! ### Rebuilding -/

theorem namedL_mapL {f : α → β} {cs : List (String × Comp α)} (h : NamedL cs) : NamedL (mapL f cs) := by
  suffices key : ∀ c : Comp α, c.Named → (c.map f).Named by
    induction cs with
    | nil => trivial
    | cons p l ih => obtain ⟨k, c⟩ := p; exact ⟨h.1, key c h.2.1, ih h.2.2⟩
  refine ind ?_ ?_
  · intro a _; trivial
  · intro cls cs ih hn
    simp only [map, Named]
    refine ⟨wf_of_keys (keys_mapL f cs) hn.1, ?_⟩
    have hn2 := hn.2
    clear hn h
    induction cs with
    | nil => trivial
    | cons p l ih2 =>
      obtain ⟨k, c⟩ := p
      exact ⟨hn2.1, ih (k, c) (by simp) hn2.2.1, ih2 (fun p hp => ih p (by simp [hp])) hn2.2.2⟩

theorem entriesOf_map (f : α → β) : ∀ (c : Comp α), c.Named → ∀ k,
    (c.map f).entriesOf k = (c.entriesOf k).map (fun p => (p.1, f p.2)) := by
  refine ind ?_ ?_
  · intro a _ k; rfl
  · intro cls cs ih hn k
    have h1 : WF (mapL f cs) := wf_of_keys (keys_mapL f cs) hn.1
    rw [map, entriesOf_node h1 (namedL_mapL hn.2), entriesOf_node hn.1 hn.2]
    have : entries (mapL f cs) = (entries cs).map (fun p => (p.1, f p.2)) := by
      have h2 := hn.2
      clear hn h1
      induction cs with
      | nil => rfl
      | cons p l ih2 =>
        obtain ⟨k', c⟩ := p
        simp only [mapL, entries, List.map_append]
        rw [ih (k', c) (by simp) h2.2.1 k', ih2 (fun p hp => ih p (by simp [hp])) h2.2.2]
    rw [this]
    simp [List.map_map, Function.comp_def]

theorem cartesianNd_mapL (f : α → β) {cs : List (String × Comp α)} (hw : WF cs) (hn : NamedL cs) :
    cartesianNd (mapL f cs) = (cartesianNd cs).map (fun p => (p.1, f p.2)) := by
  rw [cartesianNd_eq hw hn, cartesianNd_eq (wf_of_keys (keys_mapL f cs) hw) (namedL_mapL hn)]
  clear hw
  induction cs with
  | nil => rfl
  | cons p l ih2 =>
    obtain ⟨k', c⟩ := p
    simp only [mapL, entries, List.map_append]
    rw [entriesOf_map f c hn.2.1 k', ih2 hn.2.2]

theorem keys_map_snd (f : α → β) (d : Dict α) : keys (d.map (fun p => (p.1, f p.2))) = keys d := by
  simp [keys, List.map_map, Function.comp_def]

theorem get?_map_snd (f : α → β) (d : Dict α) (q : String) :
    get? (d.map (fun p => (p.1, f p.2))) q = (get? d q).map f := by
  induction d with
  | nil => rfl
  | cons p d ih =>
    rw [List.map_cons, get?_cons, get?_cons, ih]
    split <;> rfl

theorem keys_cartesianNd_mapL (f : α → β) {cs : List (String × Comp α)} (hw : WF cs) (hn : NamedL cs) :
    keys (cartesianNd (mapL f cs)) = keys (cartesianNd cs) := by
  rw [cartesianNd_mapL f hw hn]
  exact keys_map_snd f (cartesianNd cs)

theorem get?_getElem {d : Dict α} (hw : WF d) {i : Nat} (h : i < d.length) : get? d d[i].1 = some d[i].2 :=
  get?_of_mem hw (List.getElem_mem h)

theorem map_map (f : α → β) (g : β → γ) : ∀ c : Comp α, (c.map f).map g = c.map (g ∘ f) := by
  refine ind ?_ ?_
  · intro a; rfl
  · intro cls cs ih
    simp only [map]
    congr 1
    rw [mapL_eq, mapL_eq, mapL_eq, List.map_map]
    refine List.map_congr_left (fun p hp => ?_)
    simp only [Function.comp_apply, Prod.mk.injEq, true_and]
    exact ih p hp

theorem mapL_mapL (f : α → β) (g : β → γ) (cs : List (String × Comp α)) : mapL g (mapL f cs) = mapL (g ∘ f) cs := by
  have := map_map f g (.node "" cs)
  simp only [map] at this
  injection this

/-- Rebuilding with a function which looks at the prototype of each leaf. -/
theorem fromNdL_ok {h : γ → β → R α} {like : List (String × Comp γ)} (hw : WF like) (hn : NamedL like)
    {nd : Dict β} (hnd : WF nd) (hk : ∀ q ∈ keys (cartesianNd like), q ∈ keys nd)
    (hok : ∀ q l v, get? (cartesianNd like) q = some l → get? nd q = some v → ∃ a, h l v = .ok a) :
    ∃ r, fromNdL h like nd = .ok r ∧ WF r ∧ NamedL r ∧ skelL r = skelL like ∧
      keys (cartesianNd r) = keys (cartesianNd like) ∧
      ∀ q l, get? (cartesianNd like) q = some l → ∃ v a, get? nd q = some v ∧ get? (cartesianNd r) q = some a ∧
        h l v = .ok a := by
  rw [fromNdL_eq _ _ hnd]
  rw [cartesianNd_eq hw hn] at hk hok ⊢
  obtain ⟨r, h1, h2, h3, h4⟩ := mapKeyL_ok (δ := α) hn (readNd h nd) (by
    intro p hp
    unfold readNd
    obtain ⟨v, hv⟩ := exists_get?_of_mem (hk p.1 (List.mem_map.2 ⟨p, hp, rfl⟩))
    rw [hv]
    exact hok p.1 p.2 v (get?_of_mem (wf_entries hw hn) hp) hv)
  have hrw : WF r := wf_of_keys (keys_of_skelL h3) hw
  refine ⟨r, h1, hrw, h2, h3, ?_, ?_⟩
  · rw [cartesianNd_eq hrw h2, keys_of_steps h4]
  · intro q l hl
    rw [cartesianNd_eq hrw h2]
    rcases get?_of_steps h4 q with ⟨h5, h6⟩ | ⟨l', a, h5, h6, h7⟩
    · rw [h5] at hl; cases hl
    · rw [h5] at hl; cases hl
      unfold readNd at h7
      cases hv : get? nd q with
      | none => rw [hv] at h7; cases h7
      | some v => rw [hv] at h7; exact ⟨v, a, rfl, h6, h7⟩

/-- A property of the classes and names only. -/
theorem noEmpty_of_skel : ∀ (c : Comp α) (c' : Comp β), c.skel = c'.skel → c.NoEmpty → c'.NoEmpty := by
  refine ind ?_ ?_
  · rintro a (b | _) h _
    · trivial
    · simp [skel, map] at h
  · rintro cls cs ih (b | ⟨cls', cs'⟩) h hn
    · simp [skel, map] at h
    · simp only [skel_node, node.injEq] at h
      obtain ⟨-, h⟩ := h
      refine ⟨?_, ?_⟩
      · rintro rfl
        cases cs with
        | nil => exact hn.1 rfl
        | cons p l => simp [skelL, mapL_eq] at h
      · have hn2 := hn.2
        clear hn
        induction cs generalizing cs' with
        | nil =>
          cases cs' with
          | nil => trivial
          | cons p l => simp [skelL, mapL_eq] at h
        | cons p l ih2 =>
          cases cs' with
          | nil => trivial
          | cons p' l' =>
            obtain ⟨k, c⟩ := p
            obtain ⟨k', c'⟩ := p'
            simp only [skelL, mapL, List.cons.injEq, Prod.mk.injEq] at h
            exact ⟨ih (k, c) (by simp) c' h.1.2 hn2.1, ih2 (fun p hp => ih p (by simp [hp])) _ h.2 hn2.2⟩

/-- Rebuilding a vector. -/
theorem fromCartesianNd_ok {good : α → Prop} {like : List (String × Comp γ)} (hw : WF like) (hn : NamedL like)
    (he : like ≠ [] ∧ NoEmptyL like) {nd : Dict α} (hnd : WF nd) (hk : (keys nd).toFinset = (keys (cartesianNd like)).toFinset)
    (hg : ∀ p ∈ nd, good p.2) (cls : String) :
    ∃ r, fromCartesianNd nd like = .ok r ∧ IsVec good (keys nd).toFinset (.node cls r) ∧ skelL r = skelL like ∧
      ∀ q, (node cls r).coef q = get? nd q := by
  have hk' : ∀ q, q ∈ keys (cartesianNd like) ↔ q ∈ keys nd := fun q => by
    rw [← List.mem_toFinset, ← hk, List.mem_toFinset]
  obtain ⟨r, h1, h2, h3, h4, h5, h6⟩ := fromNdL_ok (h := fun (_ : γ) (v : α) => (.ok v : R α)) hw hn hnd
    (fun q hq => (hk' q).1 hq) (fun _ _ v _ _ => ⟨v, rfl⟩)
  have hc : ∀ q, get? (cartesianNd r) q = get? nd q := by
    intro q
    cases hl : get? (cartesianNd like) q with
    | none =>
      rw [get?_eq_none.2 (by rw [h5]; exact get?_eq_none.1 hl), get?_eq_none.2 (by rw [← hk']; exact get?_eq_none.1 hl)]
    | some l =>
      obtain ⟨v, a, h7, h8, h9⟩ := h6 q l hl
      cases h9
      rw [h7, h8]
  refine ⟨r, h1, ⟨cls, r, rfl, h2, h3, by rw [h5, hk], ?_,
    noEmpty_of_skel (.node "" like) (.node "" r) (by rw [skel_node, skel_node, h4]) he⟩, h4, hc⟩
  intro p hp
  have : get? (cartesianNd r) p.1 = some p.2 := get?_of_mem (wf_cartesianNd r) hp
  rw [hc] at this
  exact hg _ (mem_of_get? this)

/-- Rebuilding a matrix. -/
theorem fromNdRows_ok {good : α → Prop} {C : Finset String} {like : List (String × Comp (Comp β))} (hw : WF like)
    (hn : NamedL like) (he : like ≠ [] ∧ NoEmptyL like)
    (hl : ∀ row ∈ leavesL like, IsVec (fun _ => True) C row)
    {nd : Dict (Dict α)} (hnd : WF nd) (hk : (keys nd).toFinset = (keys (cartesianNd like)).toFinset)
    (hg : ∀ p ∈ nd, WF p.2 ∧ (keys p.2).toFinset = C ∧ ∀ q ∈ p.2, good q.2) :
    ∃ r, Mat.fromNdRows nd like = .ok r ∧ IsMat good (keys nd).toFinset C r ∧ layout r = layout like ∧
      ∀ q c, entry r q c = (get? nd q).bind (fun d => get? d c) := by
  have hk' : ∀ q, q ∈ keys (cartesianNd like) ↔ q ∈ keys nd := fun q => by
    rw [← List.mem_toFinset, ← hk, List.mem_toFinset]
  have hlike : ∀ q l, get? (cartesianNd like) q = some l → IsVec (fun _ => True) C l := by
    intro q l hq
    refine hl l ?_
    rw [← values_cartesianNd hw hn]
    exact List.mem_map.2 ⟨(q, l), mem_of_get? hq, rfl⟩
  have hrow : ∀ (l : Comp β) (d : Dict α), IsVec (fun _ => True) C l → (WF d ∧ (keys d).toFinset = C ∧ ∀ q ∈ d, good q.2) →
      ∃ a : Comp α, (match l with
        | .leaf _ => (.error .other : R (Comp α))
        | .node cls cs => do .ok (.node cls (← fromCartesianNd d cs))) = .ok a ∧ IsVec good C a ∧ a.skel = l.skel ∧
        ∀ c, a.coef c = get? d c := by
    rintro l d ⟨cls, cs, rfl, h1, h2, h3, -, h4⟩ ⟨h5, h6, h7⟩
    obtain ⟨r, h8, h9, h10, h11⟩ := fromCartesianNd_ok h1 h2 h4 h5 (h6.trans h3.symm) h7 cls
    rw [h6] at h9
    refine ⟨.node cls r, ?_, h9, by rw [skel_node, skel_node, h10], h11⟩
    simp only [h8]
    rfl
  obtain ⟨r, h1, h2, h3, h4, h5, h6⟩ := fromNdL_ok (α := Comp α) (h := fun (likeRow : Comp β) (row : Dict α) => match likeRow with
      | .leaf _ => (.error .other : R (Comp α))
      | .node cls cs => do .ok (.node cls (← fromCartesianNd row cs))) hw hn hnd
    (fun q hq => (hk' q).1 hq) (by
      intro q l v hq hv
      obtain ⟨a, ha, _⟩ := hrow l v (hlike q l hq) (hg _ (mem_of_get? hv))
      exact ⟨a, ha⟩)
  have hmain : ∀ q, (get? nd q = none ∧ get? (cartesianNd r) q = none) ∨ ∃ l d a, get? (cartesianNd like) q = some l ∧
      get? nd q = some d ∧ get? (cartesianNd r) q = some a ∧ IsVec good C a ∧ a.skel = l.skel ∧ ∀ c, a.coef c = get? d c := by
    intro q
    cases hq : get? (cartesianNd like) q with
    | none =>
      left
      exact ⟨get?_eq_none.2 (by rw [← hk']; exact get?_eq_none.1 hq), get?_eq_none.2 (by rw [h5]; exact get?_eq_none.1 hq)⟩
    | some l =>
      right
      obtain ⟨v, a, h7, h8, h9⟩ := h6 q l hq
      obtain ⟨a', ha, hb⟩ := hrow l v (hlike q l hq) (hg _ (mem_of_get? h7))
      rw [ha] at h9
      cases h9
      exact ⟨l, v, a, rfl, h7, h8, hb⟩
  refine ⟨r, h1, ⟨h2, h3, ?_, by rw [h5, hk], ?_⟩, ?_, ?_⟩
  · exact noEmpty_of_skel (.node "" like) (.node "" r) (by rw [skel_node, skel_node, h4]) he
  · intro p hp
    rcases hmain p.1 with ⟨_, h7⟩ | ⟨l, d, a, _, _, h7, h8, _⟩
    · rw [get?_of_mem (wf_cartesianNd r) hp] at h7; cases h7
    · rw [get?_of_mem (wf_cartesianNd r) hp] at h7; cases h7; exact h8
  · unfold layout
    refine ext_entriesL (namedL_mapL h3) (namedL_mapL hn) ?_ ?_
    · have hmm : ∀ {δ ε : Type} (f : δ → ε) (cs : List (String × Comp δ)), skelL (mapL f cs) = skelL cs := by
        intro δ ε f
        have hc : ∀ c : Comp δ, (c.map f).skel = c.skel := by
          refine ind ?_ ?_
          · intro a; rfl
          · intro cls cs ih
            rw [map, skel_node, skel_node]
            congr 1
            unfold skelL
            rw [mapL_eq, mapL_eq, mapL_eq, List.map_map]
            refine List.map_congr_left (fun p hp => ?_)
            simp only [Function.comp_apply, Prod.mk.injEq, true_and]
            exact ih p hp
        intro cs
        unfold skelL
        rw [mapL_eq, mapL_eq, mapL_eq, List.map_map]
        refine List.map_congr_left (fun p hp => ?_)
        simp only [Function.comp_apply, Prod.mk.injEq, true_and]
        exact hc p.2
      rw [hmm, hmm, h4]
    · rw [← cartesianNd_eq (wf_of_keys (keys_mapL _ _) h2) (namedL_mapL h3),
        ← cartesianNd_eq (wf_of_keys (keys_mapL _ _) hw) (namedL_mapL hn), cartesianNd_mapL _ h2 h3, cartesianNd_mapL _ hw hn]
      have hkk := h5
      have hsk : ∀ q l, get? (cartesianNd like) q = some l → ∃ a, get? (cartesianNd r) q = some a ∧ a.skel = l.skel := by
        intro q l hq
        rcases hmain q with ⟨h7, _⟩ | ⟨l', d, a, h7, _, h8, _, h9, _⟩
        · exact absurd ((hk' q).1 (mem_keys_of_get? hq)) (get?_eq_none.1 h7)
        · rw [hq] at h7; cases h7; exact ⟨a, h8, h9⟩
      refine List.ext_getElem (by
        have := congrArg List.length hkk
        simpa using this) ?_
      intro i hi hi'
      simp only [List.getElem_map]
      have hi2 : i < (cartesianNd r).length := by simpa using hi
      have hi3 : i < (cartesianNd like).length := by simpa using hi'
      have e1 : (cartesianNd r)[i].1 = (cartesianNd like)[i].1 := by
        have := List.getElem_of_eq hkk (i := i) (by simpa using hi2)
        simpa [keys] using this
      obtain ⟨a, ha, hb⟩ := hsk (cartesianNd like)[i].1 (cartesianNd like)[i].2
        (get?_of_mem (wf_cartesianNd like) (List.getElem_mem hi3))
      have hr : get? (cartesianNd r) (cartesianNd r)[i].1 = some (cartesianNd r)[i].2 :=
        get?_of_mem (wf_cartesianNd r) (List.getElem_mem hi2)
      rw [e1, ha] at hr
      cases hr
      rw [e1, hb]
  · intro q c
    unfold entry
    rcases hmain q with ⟨h7, h8⟩ | ⟨l, d, a, _, h7, h8, _, _, h9⟩
    · rw [h7, h8]; rfl
    · rw [h7, h8]; exact h9 c

/-! ### Transposing -/

theorem transposeRow_ok {r : String} {row : Dict α} (hw : WF row) {res : Dict (Dict α)}
    (hk : ∀ c ∈ keys row, c ∈ keys res) :
    ∃ res', Mat.transposeRow r row res = .ok res' ∧ keys res' = keys res ∧
      ∀ c, get? res' c = (get? res c).map (fun d => match get? row c with
        | none => d
        | some v => Dict.set d r v) := by
  unfold Mat.transposeRow
  induction row generalizing res with
  | nil => exact ⟨res, rfl, rfl, fun c => by simp⟩
  | cons p row ih =>
    obtain ⟨hp, hw'⟩ := wf_cons.1 hw
    obtain ⟨d, hd⟩ := exists_get?_of_mem (hk p.1 (by simp))
    have hks : keys (Dict.set res p.1 (Dict.set d r p.2)) = keys res := by
      rw [keys_set, if_pos (mem_keys_of_get? hd)]
    obtain ⟨res', h1, h2, h3⟩ := ih hw' (res := Dict.set res p.1 (Dict.set d r p.2)) (by
      intro c hc; rw [hks]; exact hk c (by simp [hc]))
    refine ⟨res', ?_, h2.trans hks, ?_⟩
    · rw [List.foldlM_cons]
      simp only [hd, bind, Except.bind]
      exact h1
    · intro c
      rw [h3 c, get?_set, get?_cons]
      by_cases hc : p.1 = c
      · subst hc
        rw [if_pos rfl, if_pos rfl, hd, get?_eq_none.2 hp]
        rfl
      · rw [if_neg hc, if_neg hc]

theorem transposeLoop_ok {good : α → Prop} {C : Finset String} {L : Dict (Comp α)} (hw : WF L)
    (hL : ∀ p ∈ L, IsVec good C p.2) {res : Dict (Dict α)} (hk : (keys res).toFinset = C)
    {K0 : List String} (hK : ∀ k ∈ keys L, k ∈ K0) (hres : ∀ c d, get? res c = some d → keys d = K0) :
    ∃ res', (L.foldlM (fun res p => do Mat.transposeRow p.1 (← p.2.flatRow) res) res : R _) = .ok res' ∧
      keys res' = keys res ∧ ∀ c d, get? res c = some d → ∃ d', get? res' c = some d' ∧ keys d' = K0 ∧
        ∀ r, get? d' r = match get? L r with
          | none => get? d r
          | some row => row.coef c := by
  induction L generalizing res with
  | nil => exact ⟨res, rfl, rfl, fun c d hd => ⟨d, hd, hres c d hd, fun r => rfl⟩⟩
  | cons p L ih =>
    obtain ⟨hp, hw'⟩ := wf_cons.1 hw
    obtain ⟨cls, cs, hpe, h1, h2, h3, h4⟩ := hL p (by simp)
    obtain ⟨res1, h5, h6, h7⟩ := transposeRow_ok (r := p.1) (wf_cartesianNd cs) (res := res) (by
      intro c hc
      rw [← List.mem_toFinset, h3, ← hk, List.mem_toFinset] at hc
      exact hc)
    have hsome : ∀ c ∈ keys res, ∃ v, get? (cartesianNd cs) c = some v := by
      intro c hc
      rw [← List.mem_toFinset, hk, ← h3, List.mem_toFinset] at hc
      exact exists_get?_of_mem hc
    have hres1 : ∀ c d, get? res c = some d → ∃ v, get? (cartesianNd cs) c = some v ∧
        get? res1 c = some (Dict.set d p.1 v) := by
      intro c d hd
      obtain ⟨v, hv⟩ := hsome c (mem_keys_of_get? hd)
      exact ⟨v, hv, by rw [h7 c, hd, hv]; rfl⟩
    obtain ⟨res', h8, h9, h10⟩ := ih hw' (fun q hq => hL q (by simp [hq])) (res := res1) (by rw [h6, hk])
      (fun k hk => hK k (by simp [hk])) (by
        intro c d hd
        have hc : c ∈ keys res := by rw [← h6]; exact mem_keys_of_get? hd
        obtain ⟨d0, hd0⟩ := exists_get?_of_mem hc
        obtain ⟨v, _, hv⟩ := hres1 c d0 hd0
        rw [hd] at hv
        cases hv
        rw [keys_set, hres c d0 hd0, if_pos (hK p.1 (by simp))])
    refine ⟨res', ?_, h9.trans h6, ?_⟩
    · rw [List.foldlM_cons]
      simp only [hpe, flatRow, bind, Except.bind, h5]
      exact h8
    · intro c d hd
      obtain ⟨v, hv, hd1⟩ := hres1 c d hd
      obtain ⟨d', h11, h12, h13⟩ := h10 c _ hd1
      refine ⟨d', h11, h12, fun r => ?_⟩
      rw [h13 r, get?_cons]
      by_cases hr : p.1 = r
      · subst hr
        rw [if_pos rfl, get?_eq_none.2 hp]
        simp only [get?_set, if_true, hpe, coef, hv]
      · rw [if_neg hr]
        cases get? L r with
        | none => simp only [get?_set, if_neg hr]
        | some row => rfl

end Comp

namespace Mat
open Comp
variable {α K : Type}

theorem leavesL_mapL {β γ : Type} (f : β → γ) (cs : List (String × Comp β)) : leavesL (mapL f cs) = (leavesL cs).map f := by
  have hc : ∀ c : Comp β, (c.map f).leaves = c.leaves.map f := by
    refine ind ?_ ?_
    · intro a; rfl
    · intro cls cs ih
      simp only [map, leaves]
      rw [leavesL_eq, leavesL_eq, mapL_eq, List.flatMap_map, List.map_flatMap]
      induction cs with
      | nil => rfl
      | cons p l ih2 =>
        simp only [List.flatMap_cons]
        rw [ih p (by simp), ih2 (fun q hq => ih q (by simp [hq]))]
  induction cs with
  | nil => rfl
  | cons p l ih => obtain ⟨k, c⟩ := p; simp [mapL, leavesL, ih, hc]

theorem skel_map {β γ : Type} (f : β → γ) : ∀ c : Comp β, (c.map f).skel = c.skel := by
  refine ind ?_ ?_
  · intro a; rfl
  · intro cls cs ih
    rw [map, skel_node, skel_node]
    congr 1
    unfold skelL
    rw [mapL_eq, mapL_eq, mapL_eq, List.map_map]
    refine List.map_congr_left (fun p hp => ?_)
    simp only [Function.comp_apply, Prod.mk.injEq, true_and]
    exact ih p hp

theorem skelL_mapL {β γ : Type} (f : β → γ) (cs : List (String × Comp β)) : skelL (mapL f cs) = skelL cs := by
  have := skel_map f (.node "" cs)
  rw [map, skel_node, skel_node] at this
  injection this

theorem noEmptyL_mapL {β γ : Type} (f : β → γ) {cs : List (String × Comp β)} (h : cs ≠ [] ∧ NoEmptyL cs) :
    mapL f cs ≠ [] ∧ NoEmptyL (mapL f cs) := by
  exact noEmpty_of_skel (.node "" cs) (.node "" (mapL f cs)) (by rw [skel_node, skel_node, skelL_mapL]) h

end Mat
end NA
