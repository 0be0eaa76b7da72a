import Verif.Scalar.StringArray
import Verif.Props.Lengths

/-!
# C126: arrays of strings
-/

namespace NA.Str
open Dict
open SA (InRange)
variable {α : Type}

/-- Text without a percent sign is copied. -/
theorem modulo_text (render : List Char → α → List Char) (x : α) {tail : List Char} (h : '%' ∉ tail) :
    modulo render x (.text true) tail = .ok tail := by
  induction tail with
  | nil => simp [modulo]
  | cons c cs ih =>
    simp only [List.mem_cons, not_or] at h
    rw [modulo, if_neg (Ne.symm h.1), ih h.2]
    rfl

/-- ... also after a complete format. -/
theorem modulo_append (render : List Char → α → List Char) (x : α) {tail : List Char} (h : '%' ∉ tail) :
    ∀ (format : List Char) (m : Mode) (s : List Char), modulo render x m format = .ok s → modulo render x m (format ++ tail) = .ok (s ++ tail) := by
  intro format
  induction format with
  | nil =>
    intro m s hs
    cases m with
    | conversion r u => rw [modulo] at hs; cases hs
    | text u =>
      cases u with
      | false => simp [modulo] at hs
      | true =>
        simp only [modulo, if_true] at hs
        cases hs
        exact modulo_text render x h
  | cons c cs ih =>
    intro m s hs
    have step : ∀ (m' : Mode) (pre : List Char), (do .ok (pre ++ (← modulo render x m' cs)) : R (List Char)) = .ok s →
        (do .ok (pre ++ (← modulo render x m' (cs ++ tail))) : R (List Char)) = .ok (s ++ tail) := by
      intro m' pre hh
      cases hm : modulo render x m' cs with
      | error e => rw [hm] at hh; cases hh
      | ok t =>
        rw [hm] at hh
        simp only [bind, Except.bind, Except.ok.injEq] at hh
        rw [ih m' t hm, ← hh]
        simp only [bind, Except.bind, List.append_assoc]
    cases m with
    | text u =>
      rw [List.cons_append, modulo]
      rw [modulo] at hs
      split
      · next hc => rw [if_pos hc] at hs; exact ih _ _ hs
      · next hc => rw [if_neg hc] at hs; exact step _ [c] hs
    | conversion r u =>
      rw [List.cons_append, modulo]
      rw [modulo] at hs
      split
      · next hc => rw [if_pos hc] at hs; exact step _ ['%'] hs
      · next hc =>
        rw [if_neg hc] at hs
        split
        · next hd => rw [if_pos hd] at hs; exact ih _ _ hs
        · next hd =>
          rw [if_neg hd] at hs
          split
          · next hu => rw [if_pos hu] at hs; cases hs
          · next hu =>
            rw [if_neg hu] at hs
            split
            · next ht => rw [if_pos ht] at hs; exact step _ _ hs
            · next ht => rw [if_neg ht] at hs; cases hs

/-- **C126** (default). The default format gives the value with two decimals. -/
theorem C126_default_format (render : List Char → α → List Char) (x : α) :
    modulo render x (.text false) "%.2f".toList = .ok (render ".2f".toList x) := by
  change modulo render x (.text false) ['%', '.', '2', 'f'] = .ok (render ['.', '2', 'f'] x)
  simp [modulo, isModifier, isType, bind, Except.bind]

/-- What shall be appended to the text of the value. -/
def suffix (pad : List Char) : Option (List Char) → List Char
  | none => []
  | some unit => pad ++ unit

/-- What shall become of one scalar. -/
def Written (text : α → List Char) (pad : List Char) (unit : Option (List Char)) (a : SA α) (b : SA (List Char)) : Prop :=
  b.WF ∧ b.axes = a.axes ∧ b.shape = a.shape ∧ ∀ e, InRange a.shape e → b.at' e = text (a.at' e) ++ suffix pad unit

theorem list_mapM_ok {ι κ : Type} {f : ι → R κ} {g : ι → κ} : ∀ {l : List ι}, (∀ i ∈ l, f i = .ok (g i)) → l.mapM f = .ok (l.map g)
  | [], _ => rfl
  | i :: l, h => by
    rw [List.mapM_cons, h i (by simp), list_mapM_ok (fun j hj => h j (by simp [hj]))]
    rfl

/-- **C126** (scalars). If the format of the value is complete, and neither `pad_unit` nor the text of the unit contains a percent sign, the strings have the
axes and the shape of the array, and are at every index the text of the value followed by `pad_unit` and the unit.
Missing for the full property: units whose text contains a percent sign (`C126_percent_refuted`). -/
theorem C126_scalar_partial (render : List Char → α → List Char) {formatValue pad : List Char} {unit : Option (List Char)} {text : α → List Char}
    (ht : ∀ x, modulo render x (.text false) formatValue = .ok (text x)) (hu : '%' ∉ suffix pad unit) {a : SA α} (ha : a.WF) :
    ∃ b, toStringArray render formatValue pad unit a = .ok b ∧ Written text pad unit a b := by
  have hf : ∀ x, modulo render x (.text false) (formatOf formatValue pad unit) = .ok (text x ++ suffix pad unit) := by
    intro x
    cases unit with
    | none => simp only [formatOf, suffix, List.append_nil]; exact ht x
    | some unit =>
      simp only [formatOf, suffix, List.append_assoc]
      exact modulo_append render x hu _ _ _ (ht x)
  refine ⟨⟨a.axes, a.nd.map (fun x => text x ++ suffix pad unit)⟩, ?_, ha, rfl, rfl, fun e _ => rfl⟩
  unfold toStringArray
  dsimp only
  rw [list_mapM_ok (g := fun i => text (a.nd.get i) ++ suffix pad unit) (fun i _ => hf _)]
  simp only [bind, Except.bind, hf]
  exact SA.mk?_of_wf ha.1 ha.2

/-- **C126** (vectors). ... for all scalars of a vector, each with its own unit, in the same structure. -/
theorem C126_vector_partial (render : List Char → α → List Char) {formatValue pad : List Char} {text : α → List Char}
    (ht : ∀ x, modulo render x (.text false) formatValue = .ok (text x)) {v : Comp (Option (List Char) × SA α)}
    (hv : ∀ p ∈ v.leaves, p.2.WF ∧ '%' ∉ suffix pad p.1) :
    ∃ r, vectorToStringArray render formatValue pad v = .ok r ∧ v.Lift (fun p b => Written text pad p.1 p.2 b) r := by
  obtain ⟨r, hr⟩ := Comp.mapM_isOk' (fun p => toStringArray render formatValue pad p.1 p.2) v (fun p hp => by
    obtain ⟨b, h1, _⟩ := C126_scalar_partial render ht (hv p hp).2 (hv p hp).1
    exact ⟨b, h1⟩)
  refine ⟨r, hr, Comp.lift_mono_leaves _ _ (fun p hp b hb => ?_) ((Comp.mapM_lift _ _ _).1 hr)⟩
  obtain ⟨b', h1, h2⟩ := C126_scalar_partial render ht (hv p hp).2 (hv p hp).1
  rw [h1] at hb; cases hb
  exact h2

/-- **C126** (no strings without values). A format which is not complete for one value raises its error, if the array has an element and
there is no unit. -/
theorem C126_error (render : List Char → α → List Char) {formatValue pad : List Char} {x : Err}
    (ht : ∀ v, modulo render v (.text false) formatValue = .error x) {a : SA α} (ha : a.WF) {e : String → Nat} (he : InRange a.shape e) :
    toStringArray render formatValue pad none a = .error x := by
  unfold toStringArray
  simp only [formatOf, ht]
  have hm : a.axes.map e ∈ ndIndices a.nd.shape := by rw [ND.mem_ndIndices_iff]; exact (SA.inRange_nd ha).1 he
  cases hl : ndIndices a.nd.shape with
  | nil => rw [hl] at hm; simp at hm
  | cons i l => rw [List.mapM_cons]; rfl

/-! ### Examples -/

/-- a way to write numbers, for the examples -/
def exRender (_ : List Char) (n : Nat) : List Char := List.replicate n 'I'
def exNumbers : SA Nat := ⟨["t"], ND.ofList [2] [1, 3] 0⟩
theorem wf_exNumbers : exNumbers.WF := ⟨rfl, (by decide : ["t"].Nodup)⟩

example : ∃ b, toStringArray exRender "%.2f".toList [' '] (some ['k', 'm']) exNumbers = .ok b ∧
    Written (exRender ".2f".toList) [' '] (some ['k', 'm']) exNumbers b :=
  C126_scalar_partial exRender (C126_default_format exRender) (by decide) wf_exNumbers
example : (toStringArray exRender "%.2f".toList [' '] (some ['k', 'm']) exNumbers).toOption.map (fun b => b.nd.toList) =
    some [['I', ' ', 'k', 'm'], ['I', 'I', 'I', ' ', 'k', 'm']] := by decide +kernel
example : ∃ r, vectorToStringArray exRender "%.2f".toList [' '] (.node "V" [("x", .leaf (some ['m'], exNumbers)), ("y", .leaf (none, exNumbers))]) = .ok r := by
  obtain ⟨r, h, _⟩ := C126_vector_partial exRender (pad := [' ']) (C126_default_format exRender)
    (v := .node "V" [("x", .leaf (some ['m'], exNumbers)), ("y", .leaf (none, exNumbers))]) (by
      intro p hp
      simp only [Comp.leaves, Comp.leavesL, List.append_nil, List.cons_append, List.nil_append, List.mem_cons, List.not_mem_nil, or_false] at hp
      rcases hp with rfl | rfl
      · exact ⟨wf_exNumbers, by decide⟩
      · exact ⟨wf_exNumbers, by decide⟩)
  exact ⟨r, h⟩
-- a format without conversion
example : toStringArray exRender ['k'] [] none exNumbers = .error .typeError :=
  C126_error exRender (fun v => by simp [modulo, bind, Except.bind]) wf_exNumbers (e := fun _ => 0) (fun ax n hn => by
    change get? [("t", 2)] ax = some n at hn
    simp only [get?] at hn
    split at hn
    · cases hn; show 0 < 2; omega
    · cases hn)

/-- **C126** is false of units whose text contains a percent sign, such as per cent in the formats "generic" and "unicode" of astropy: the text of the
unit becomes a part of the format string, and python raises `ValueError` for the incomplete conversion, or `TypeError` if another character
follows. -/
theorem C126_percent_refuted : exNumbers.WF ∧ (∀ x, modulo exRender x (.text false) "%.2f".toList = .ok (exRender ".2f".toList x)) ∧
    (toStringArray exRender "%.2f".toList [' '] none exNumbers).isOk = true ∧
    toStringArray exRender "%.2f".toList [' '] (some ['%']) exNumbers = .error .valueError ∧
    toStringArray exRender "%.2f".toList [' '] (some ['%', '}', '$']) exNumbers = .error .typeError := by
  have h1 : ∀ x, modulo exRender x (.text false) (formatOf "%.2f".toList [' '] (some ['%'])) = .error .valueError := by
    intro x
    change modulo exRender x (.text false) ['%', '.', '2', 'f', ' ', '%'] = _
    simp [modulo, isModifier, isType, bind, Except.bind]
  have h2 : ∀ x, modulo exRender x (.text false) (formatOf "%.2f".toList [' '] (some ['%', '}', '$'])) = .error .typeError := by
    intro x
    change modulo exRender x (.text false) ['%', '.', '2', 'f', ' ', '%', '}', '$'] = _
    simp [modulo, isModifier, isType, bind, Except.bind]
  refine ⟨wf_exNumbers, C126_default_format exRender, by decide +kernel, ?_, ?_⟩
  · unfold toStringArray
    simp only [h1]
    rfl
  · unfold toStringArray
    simp only [h2]
    rfl

end NA.Str
