import Verif.Mixed.ConvertLemmas

/-!
# C101: converting arrays to the type of another array
-/

namespace NA
open Dict
namespace Arr
variable {α β γ δ : Type}

/-! ### The properties -/

/-- **C101**. `na.asarray(a, like=b)` returns the array which has the values of `a` and the types of both, if
there is one, and otherwise raises `TypeError`; this does not depend on which of the two is asked first. -/
theorem C101_convert (swap : Arr α → Arr γ → Bool) (g : α → β) (L : String → List String) (a : Arr α)
    (b : Arr γ) (ha : Proper L a) (hb : Proper L b) :
    (∀ r, asarrayLike swap g a b = .ok r ↔ Converts g a b r) ∧
    (∀ r, asarrayLike swap g a b = .ok r → Proper L r) ∧
    ∀ e, asarrayLike swap g a b = .error e → e = .typeError := by
  obtain ⟨h1, h2⟩ := main swap g L (a.depth + b.depth + 1) a b ha hb (le_refl _)
  exact ⟨h1, fun r h => proper_converts ((h1 r).1 h) ha hb, h2⟩

/-- **C101** (types). Converting `a` to the type of `b` and `b` to the type of `a` succeed together, and give
arrays of the same type. -/
theorem C101_same_type (swap : Arr α → Arr γ → Bool) (swap' : Arr γ → Arr α → Bool) (g : α → β) (g' : γ → δ)
    (L : String → List String) (a : Arr α) (b : Arr γ) (ha : Proper L a) (hb : Proper L b) (r : Arr β)
    (h : asarrayLike swap g a b = .ok r) : ∃ r', asarrayLike swap' g' b a = .ok r' ∧ SameKind r r' := by
  obtain ⟨r', h1, h2⟩ := swap_converts (((C101_convert swap g L a b ha hb).1 r).1 h) g'
  exact ⟨r', ((C101_convert swap' g' L b a hb ha).1 r').2 h1, h2⟩

/-- **C101** (once is enough). Converting the result again, to the type of either array, changes nothing. -/
theorem C101_idempotent (swap : Arr α → Arr γ → Bool) (swap₁ : Arr β → Arr γ → Bool)
    (swap₂ : Arr β → Arr α → Bool) (g : α → β) (L : String → List String) (a : Arr α) (b : Arr γ)
    (ha : Proper L a) (hb : Proper L b) (r : Arr β) (h : asarrayLike swap g a b = .ok r) :
    asarrayLike swap₁ id r b = .ok r ∧ asarrayLike swap₂ id r a = .ok r := by
  obtain ⟨h1, h2, _⟩ := C101_convert swap g L a b ha hb
  have hr := h2 r h
  exact ⟨((C101_convert swap₁ id L r b hr hb).1 r).2 (absorb_right ((h1 r).1 h)),
    ((C101_convert swap₂ id L r a hr ha).1 r).2 (absorb_left ((h1 r).1 h))⟩

/-- **C101** (without `like`). Every array can be converted; its type does not change, and a second conversion
changes nothing. -/
theorem C101_alone (swap : Arr α → Arr γ → Bool) (swap' : Arr β → Arr γ → Bool) (g : α → β)
    (L : String → List String) (none : γ) (a : Arr α) (ha : Proper L a) :
    ∃ r, asarray swap g none a = .ok r ∧ SameKind r a ∧ asarray swap' id none r = .ok r := by
  have hs : Proper L (.sa (SA.scalar none) : Arr γ) := .sa (scalar_fits [] none).1 (by simp [SA.scalar])
  obtain ⟨r, h1, h2⟩ := converts_scalar (γ := γ) g ha (SA.scalar none)
  have h := ((C101_convert swap g L a _ ha hs).1 r).2 h1
  exact ⟨r, h, h2, (C101_idempotent swap swap' (fun _ _ => false) g L a _ ha hs r h).1⟩

/-- **C101** (vectors of different types). They cannot be converted into each other. -/
theorem C101_type_error (swap : Arr α → Arr γ → Bool) (g : α → β) (cls cls' : String)
    (cs : List (String × Arr α)) (ds : List (String × Arr γ)) (h : cls ≠ cls') :
    asarrayLike swap g (.vec cls cs) (.vec cls' ds) = .error .typeError :=
  aux_clash swap g h _

/-- **C101** (the reserved axis). A scalar which has the axis of the samples cannot become an uncertain
scalar. -/
theorem C101_reserved (swap : Arr α → Arr γ → Bool) (g : α → β) (x : SA α) (u : UA γ) (hx : x.WF)
    (hd : axisD ∈ x.axes) : asarrayLike swap g (.sa x) (.ua u) = .error .valueError := by
  have hmk : UA.mk? (mapSA g x) (mapSA g x) = .error .valueError := by
    unfold UA.mk?
    rw [SA.keys_shape (wf_mapSA hx), if_pos (show axisD ∈ (mapSA g x).axes from hd)]
  show asarrayAux swap g (1 + 1) (.sa x) (.ua u) = _
  have hs : ∀ y : SA γ, asarrayAux swap g 1 (.sa x) (.sa y) = .ok (.sa (mapSA g x)) :=
    fun y => aux_scalar swap g (a := .sa x) (b := .sa y) (x := x) (y := y) rfl rfl hx 0
  refine aux_eq swap g 1 .uncertain (res := .error .valueError) ?_ (fun m hm => ?_) (Or.inr rfl)
  · have hp : (Arr.sa x).uncertainParts = some (.sa x, .sa x) := rfl
    have hp' : (Arr.ua u).wrapped.uncertainParts = some (.sa u.nominal, .sa u.distribution) := rfl
    simp only [attempt, hp, hp', hs]
    show (UA.mk? (mapSA g x) (mapSA g x)).bind (fun r => .ok (some (Arr.ua r))) = _
    rw [hmk]; rfl
  · rcases hm with hm | hm
    · cases hm; exact Or.inr (attempt_scalar_none g (Or.inr rfl))
    · cases hm; exact Or.inl rfl

/-- **C101** (`from_scalar_array`). From a scalar or a number: the result has the type of `like`, and every
part of it is the scalar. -/
theorem C101_from_scalar (L : String → List String) (x : SA α) (a : Arr α) (hx : IsScalar x a) (b : Arr γ)
    (hb : Proper L b) : ∃ r, fromScalarArray a b = .ok r ∧ Filled x r ∧ SameKind r b :=
  fill_main hx hb

/-- **C101** (`na.nominal`). Nothing uncertain is left, and taking nominal values twice is the same as once. -/
theorem C101_nominal (a : Arr α) : Certain a.nominal ∧ a.nominal.nominal = a.nominal ∧
    (Certain a → a.nominal = a) :=
  ⟨nominal_certain a, nominal_of_certain _ (nominal_certain a), nominal_of_certain a⟩

/-- **C101** (`na.nominal` and conversions). The nominal values of a conversion are the conversion of the
nominal values. -/
theorem C101_nominal_convert (swap swap' : Arr α → Arr γ → Bool) (g : α → β) (L : String → List String)
    (a : Arr α) (b : Arr γ) (ha : Proper L a) (hb : Proper L b) (r : Arr β)
    (h : asarrayLike swap g a b = .ok r) :
    asarrayLike swap' g a.nominal b.nominal = .ok r.nominal :=
  ((C101_convert swap' g L _ _ (nominal_proper ha) (nominal_proper hb)).1 _).2
    (nominal_converts (((C101_convert swap g L a b ha hb).1 r).1 h))

/-- **C101** (`zeros_like`, `ones_like`), for arrays without functions; with a shape, every uncertain scalar
must have its axis of samples. -/
theorem C101_zeros_like_partial (z : β) (shape : Option Shape)
    (hw : ∀ s, shape = some s → WF s ∧ axisD ∉ keys s) (L : String → List String) (a : Arr α)
    (ha : Proper L a) (hs : Sampled shape a) :
    ∃ r, createLike z shape a = .ok r ∧ Created z shape a r ∧ SameKind r a :=
  create_main z shape hw ha hs

/-- **C101** (`zeros_like` of functions). Functions do not implement it. -/
theorem C101_zeros_like_function (z : β) (shape : Option Shape) (i o : Arr α) :
    createLike z shape (.func i o) = .error .typeError := by
  simp only [createLike]

/-! ### The code does not do what one would expect -/

def exRow : SA Nat := ⟨["t"], ND.ofList [2] [10, 20] 0⟩
def exReading : UA Nat := ⟨⟨["t"], ND.ofList [2] [1, 2] 0⟩, ⟨["t", axisD], ND.ofList [2, 2] [1, 3, 2, 4] 0⟩⟩
/-- What kind of array a result is, and the names of its components. -/
def names? : Arr α → Option (String × List String)
  | .vec cls cs => some (cls, keys cs)
  | _ => none

/-- **C101 is false of the code** for vectors whose type does not decide which components they have, such as
`CartesianNdVectorArray`: a component which `like` does not have is lost without a warning. -/
theorem C101_components_refuted :
    (asarrayLike (fun _ _ => false) id
      (.vec "CartesianNdVectorArray" [("x", .sa exRow), ("y", .num 3)])
      (.vec "CartesianNdVectorArray" [("x", .num 0)] : Arr Nat)).map names? =
        .ok (some ("CartesianNdVectorArray", ["x"])) := by
  decide +kernel

/-- And a component which only `like` has is a `KeyError`, although the types are equal. -/
theorem C101_missing_component_refuted :
    (asarrayLike (fun _ _ => false) id
      (.vec "CartesianNdVectorArray" [("x", .sa exRow)])
      (.vec "CartesianNdVectorArray" [("x", .num 0), ("y", .num 0)] : Arr Nat)).map names? =
        .error .keyError := by
  decide +kernel

/-- **False of the code**: `from_scalar_array` can produce an uncertain scalar which its own constructor
refuses, with the axis of the samples in its nominal value. -/
theorem C101_from_scalar_refuted :
    ∃ (x : SA Nat) (u : UA Nat), x.WF ∧ fromScalarArray (.sa x) (.ua exReading) = .ok (.ua u) ∧ ¬ u.Valid ∧
      UA.mk? u.nominal u.distribution = .error .valueError :=
  ⟨⟨[axisD], ND.ofList [2] [1, 2] 0⟩, _, ⟨rfl, by decide⟩, by simp only [fromScalarArray]; rfl,
    fun h => h.2.2 (by decide), rfl⟩

/-- **False of the code**: whether `from_scalar_array` refuses an array which is not a scalar depends on
whether the components of `like` are arrays or numbers. -/
theorem C101_from_vector_refuted :
    fromScalarArray (.vec "A" [] : Arr Nat) (.vec "A" [("x", .sa exRow)]) = .error .typeError ∧
    fromScalarArray (.vec "A" [] : Arr Nat) (.vec "A" [("x", .num 3)] : Arr Nat) =
      .ok (.vec "A" [("x", .vec "A" [])]) := by
  constructor
  · simp only [fromScalarArray, fromScalarArrays]; rfl
  · simp only [fromScalarArray, fromScalarArrays]; rfl

/-- **False of the code**: a scalar converted to an uncertain scalar has no axis of samples, and then
`zeros_like` with a shape fails with a `KeyError`. -/
theorem C101_zeros_like_refuted :
    (∃ r, asarrayLike (fun _ _ => false) id (.sa exRow) (.ua exReading) = .ok r ∧ Proper (fun _ => []) r ∧
      createLike (0 : Nat) (some [("x", 3)]) r = .error .keyError) := by
  refine ⟨.ua ⟨mapSA id exRow, mapSA id exRow⟩, ?_, .ua ⟨⟨rfl, by decide⟩, ⟨rfl, by decide⟩, by decide⟩, ?_⟩
  · exact aux_uncertain (fun _ _ => false) id (a := .sa exRow) (b := .ua exReading) (x := exRow) (d := exRow)
      (x' := exReading.nominal) (d' := exReading.distribution) ⟨rfl, rfl⟩ ⟨rfl, rfl⟩ (Or.inr trivial)
      ⟨rfl, by decide⟩ (by decide) ⟨rfl, by decide⟩ 0
  · have h : get? (mapSA id exRow).shape axisD = none := by decide
    simp only [createLike, h]; rfl

/-! ### The hypotheses can be met -/

def exNames : String → List String
  | "Cartesian2dVectorArray" => ["x", "y"]
  | _ => []
/-- A vector of a number and an uncertain scalar. -/
def exPair : Arr Nat := vector "Cartesian2dVectorArray" ["x", "y"] (fun c => if c = "x" then .num 5 else .ua exReading)
/-- A vector of a scalar and a number. -/
def exOther : Arr Nat := vector "Cartesian2dVectorArray" ["x", "y"] (fun c => if c = "x" then .sa exRow else .num 0)

theorem proper_exPair : Proper exNames exPair := by
  refine .vec (cls := "Cartesian2dVectorArray") (by decide) (fun c hc => ?_)
  by_cases h : c = "x"
  · simp only [h, if_true]; exact .num 5
  · simp only [h, if_false]; exact .ua ⟨⟨rfl, by decide⟩, ⟨rfl, by decide⟩, by decide⟩

theorem proper_exOther : Proper exNames exOther := by
  refine .vec (cls := "Cartesian2dVectorArray") (by decide) (fun c hc => ?_)
  by_cases h : c = "x"
  · simp only [h, if_true]; exact .sa ⟨rfl, by decide⟩ (by decide)
  · simp only [h, if_false]; exact .num 0

/-- The types of the components. -/
def exTypes : Arr α → List Nat
  | .vec _ cs => cs.map (fun p => match p.2 with
    | .num _ => 0
    | .sa _ => 1
    | .ua _ => 2
    | .vec _ _ => 3
    | .func _ _ => 4)
  | _ => []

example : (asarrayLike (fun _ _ => true) id exPair exOther).map exTypes = .ok [1, 2] ∧
    (asarrayLike (fun _ _ => false) id exOther exPair).map exTypes = .ok [1, 2] :=
  ⟨by decide +kernel, by decide +kernel⟩

example : ∃ r, asarrayLike (fun _ _ => true) id exPair exOther = .ok r := by
  have : (asarrayLike (fun _ _ => true) id exPair exOther).map exTypes = .ok [1, 2] := by decide +kernel
  generalize asarrayLike (fun _ _ => true) id exPair exOther = x at this
  cases x with
  | ok r => exact ⟨r, rfl⟩
  | error e => cases this

example := C101_convert (fun _ _ => true) (· + 1) exNames exPair (.func exOther (.num 3)) proper_exPair
  (.func proper_exOther (.num 3))
example := C101_alone (γ := Unit) (fun _ _ => true) (fun _ _ => false) id exNames () exPair proper_exPair
example := C101_from_scalar exNames exRow (.sa exRow) rfl exPair proper_exPair
example : ∃ r, createLike (0 : Nat) (some [("s", 4)]) exPair = .ok r ∧
    Created 0 (some [("s", 4)]) exPair r ∧ SameKind r exPair := by
  refine C101_zeros_like_partial 0 (some [("s", 4)]) (fun s h => ?_) exNames exPair proper_exPair ?_
  · cases h; exact ⟨by decide, by decide⟩
  · refine .vec (fun p hp => ?_)
    simp only [List.map_cons, List.map_nil, List.mem_cons, List.not_mem_nil, or_false] at hp
    rcases hp with rfl | rfl
    · exact .num 5
    · exact .ua (Or.inr (by decide))

end Arr
end NA
