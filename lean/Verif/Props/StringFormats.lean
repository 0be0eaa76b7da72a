import Verif.Scalar.StringMod
import Verif.Props.StringArrays
import Verif.Scalar.SetLemmas

/-!
# C127: formatting with arrays of formats
-/

namespace NA.Str
open Dict
open SA (InRange)
variable {α : Type}

/-- The outcome of a traversal: all elements, or the error of one of them. -/
theorem list_mapM_cases {ι κ : Type} (f : ι → R κ) : ∀ (l : List ι),
    ((∃ m, l.mapM f = .ok m) ∧ ∀ i ∈ l, ∃ y, f i = .ok y) ∨ ∃ x, l.mapM f = .error x ∧ ∃ i ∈ l, f i = .error x
  | [] => Or.inl ⟨⟨[], rfl⟩, by simp⟩
  | i :: l => by
    rw [List.mapM_cons]
    cases hi : f i with
    | error x => exact Or.inr ⟨x, rfl, i, by simp, hi⟩
    | ok y =>
      rcases list_mapM_cases f l with ⟨⟨m, hm⟩, h⟩ | ⟨x, hx, j, hj, h⟩
      · refine Or.inl ⟨⟨y :: m, by rw [hm]; rfl⟩, ?_⟩
        intro j hj
        rcases List.mem_cons.1 hj with rfl | hj
        · exact ⟨y, hi⟩
        · exact h j hj
      · exact Or.inr ⟨x, by rw [hx]; rfl, j, by simp [hj], h⟩

/-- An index within the shape of a scalar array belongs to a named index. -/
theorem exists_named {β : Type} {a : SA β} (ha : a.WF) {i : List Nat} (hi : i ∈ ndIndices a.nd.shape) : ∃ e, InRange a.shape e ∧ a.axes.map e = i := by
  rw [ND.mem_ndIndices_iff] at hi
  have hl : i.length = a.axes.length := by rw [ND.inRange_length hi]; exact ha.1
  have hm := map_envOf ha.2 hl
  refine ⟨envOf a.axes i, ?_, hm⟩
  rw [SA.inRange_nd ha, hm]
  exact hi

/-- **C127** (success). If the strings are returned, they have the shape to which the formats and the values broadcast, and are at every index what the
operator `%` gives for the format and the value there. -/
theorem C127_strings_mod (render : List Char → α → List Char) {formats : SA (List Char)} {values : SA α} (hf : formats.WF) (hv : values.WF) {r : SA (List Char)}
    (h : stringsMod render formats values = .ok r) :
    r.WF ∧ broadcastShapes [formats.shape, values.shape] = .ok r.shape ∧
    ∀ e, InRange r.shape e → modulo render (values.atB e) (.text false) (formats.atB e) = .ok (r.at' e) := by
  unfold stringsMod at h
  cases hu : SA.ufunc2 (fun format x => modulo render x (.text false) format) formats values with
  | error x => rw [hu] at h; cases h
  | ok q =>
    obtain ⟨hq, hs, hval⟩ := SA.ufunc2_ok hf hv hu
    rw [hu] at h
    simp only [bind, Except.bind] at h
    rcases list_mapM_cases (fun i => q.nd.get i) (ndIndices q.nd.shape) with ⟨⟨m, hm⟩, hall⟩ | ⟨x, hx, _⟩
    · rw [hm] at h
      simp only at h
      obtain ⟨rfl, hr⟩ := SA.mk?_ok h
      refine ⟨hr, hs, fun e he => ?_⟩
      have hmem : q.axes.map e ∈ ndIndices q.nd.shape := by rw [ND.mem_ndIndices_iff]; exact (SA.inRange_nd hq).1 he
      obtain ⟨y, hy⟩ := hall _ hmem
      have h1 : q.at' e = .ok y := hy
      rw [← hval e, h1]
      change _ = Except.ok (match q.at' e with | .ok s => s | .error _ => [])
      rw [h1]
    · rw [hx] at h; cases h

/-- **C127** (errors). An error is raised exactly if the shapes clash, or a format at some index is not complete for the value there; it is the error of the
shapes or that of one of these formats. -/
theorem C127_error (render : List Char → α → List Char) {formats : SA (List Char)} {values : SA α} (hf : formats.WF) (hv : values.WF) :
    (∀ x, stringsMod render formats values = .error x → broadcastShapes [formats.shape, values.shape] = .error x ∨
      ∃ s e, broadcastShapes [formats.shape, values.shape] = .ok s ∧ InRange s e ∧ modulo render (values.atB e) (.text false) (formats.atB e) = .error x) ∧
    (∀ s e x, broadcastShapes [formats.shape, values.shape] = .ok s → InRange s e → modulo render (values.atB e) (.text false) (formats.atB e) = .error x →
      ∃ x', stringsMod render formats values = .error x') ∧
    (∀ x, broadcastShapes [formats.shape, values.shape] = .error x → stringsMod render formats values = .error x) := by
  refine ⟨?_, ?_, ?_⟩
  · intro x h
    unfold stringsMod at h
    cases hu : SA.ufunc2 (fun format x => modulo render x (.text false) format) formats values with
    | error x' => rw [hu] at h; cases h; exact Or.inl (SA.ufunc2_error hf hv hu)
    | ok q =>
      obtain ⟨hq, hs, hval⟩ := SA.ufunc2_ok hf hv hu
      rw [hu] at h
      simp only [bind, Except.bind] at h
      rcases list_mapM_cases (fun i => q.nd.get i) (ndIndices q.nd.shape) with ⟨⟨m, hm⟩, hall⟩ | ⟨x', hx, i, hi, hxi⟩
      · rw [hm] at h
        simp only at h
        have := h.symm.trans (SA.mk?_of_wf (nd := q.nd.map _) hq.1 hq.2)
        cases this
      · rw [hx] at h
        cases h
        obtain ⟨e, he, hei⟩ := exists_named hq hi
        refine Or.inr ⟨_, e, hs, he, ?_⟩
        rw [← hval e]
        change q.nd.get (q.axes.map e) = _
        rw [hei]; exact hxi
  · intro s e x hs he hx
    cases h : stringsMod render formats values with
    | error x' => exact ⟨x', rfl⟩
    | ok r =>
      obtain ⟨_, h2, h3⟩ := C127_strings_mod render hf hv h
      rw [hs] at h2; cases h2
      rw [h3 e he] at hx; cases hx
  · intro x hx
    unfold stringsMod
    cases hu : SA.ufunc2 (fun format x => modulo render x (.text false) format) formats values with
    | error x' => rw [SA.ufunc2_error hf hv hu] at hx; cases hx; rfl
    | ok q => rw [(SA.ufunc2_ok hf hv hu).2.1] at hx; cases hx

/-! ### Examples -/

def exFormats : SA (List Char) := ⟨["u"], ND.ofList [2] [['%', 's'], ['a', '%', 's', 'b']] []⟩
theorem wf_exFormats : exFormats.WF := ⟨rfl, (by decide : ["u"].Nodup)⟩
def exBadFormats : SA (List Char) := ⟨["u"], ND.ofList [2] [['%', 's'], ['a']] []⟩
theorem wf_exBadFormats : exBadFormats.WF := ⟨rfl, (by decide : ["u"].Nodup)⟩

example : (stringsMod exRender exFormats exNumbers).toOption.map (fun r => (r.shape, r.nd.toList)) =
    some ([("u", 2), ("t", 2)], [['I'], ['I', 'I', 'I'], ['a', 'I', 'b'], ['a', 'I', 'I', 'I', 'b']]) := by decide +kernel
example : ∃ r, stringsMod exRender exFormats exNumbers = .ok r ∧ r.WF ∧ broadcastShapes [exFormats.shape, exNumbers.shape] = .ok r.shape := by
  cases h : stringsMod exRender exFormats exNumbers with
  | error e =>
    have h1 : (stringsMod exRender exFormats exNumbers).isOk = true := by decide +kernel
    rw [h] at h1; cases h1
  | ok r =>
    obtain ⟨h1, h2, _⟩ := C127_strings_mod exRender wf_exFormats wf_exNumbers h
    exact ⟨r, rfl, h1, h2⟩
example : ∃ x, stringsMod exRender exBadFormats exNumbers = .error x :=
  (C127_error exRender wf_exBadFormats wf_exNumbers).2.1 [("u", 2), ("t", 2)] (fun ax => if ax = "u" then 1 else 0) .typeError (by decide +kernel)
    (by
      intro ax n hn
      simp only [get?] at hn
      split at hn
      · next h => cases hn; subst h; decide
      · next h =>
        split at hn
        · next h' => cases hn; subst h'; decide
        · cases hn)
    (by rfl)

end NA.Str
