import Verif.Mixed.Lemmas

/-!
# C100: operands of different types
-/

namespace NA
open Dict
namespace Val
variable {ι α β γ : Type}

/-! ### The properties -/

/-- **C100**. Two operands without functions, of any types and in any order: what is computed is the
combination of the specification, whichever of the operands numpy asks first; it is computed whenever there is
one, and otherwise the operation raises `ValueError` or `TypeError`. -/
theorem C100_mixed (C : Coordinates ι) (rf : Head → Head → Bool) (L : String → List String) (f : α → β → γ)
    (a : Val ι α) (b : Val ι β) (ha : Plain L a) (hb : Plain L b) (hS : ∃ S, a.shape C = .ok S)
    (hT : ∃ T, b.shape C = .ok T) :
    (∀ r, ufunc2 C rf f a b = .ok r → Combines C f a b r ∧ Plain L r) ∧
    ((∃ r, Combines C f a b r) → ∃ r, ufunc2 C rf f a b = .ok r) ∧
    ∀ e, ufunc2 C rf f a b = .error e → e = .valueError ∨ e = .typeError := by
  obtain ⟨h1, h2, h3⟩ := main C rf L f (a.depth + b.depth + 1) a b ha hb (by omega) hS hT
  exact ⟨fun r h => ⟨h1 r h, plain_combines (h1 r h) ha hb⟩, h2, h3⟩

/-- **C100** (order of the operands). With the operands exchanged the operation succeeds as well, and gives
the same value up to the order of the axes. -/
theorem C100_commutes (C : Coordinates ι) (rf rf' : Head → Head → Bool) (L : String → List String)
    (f : α → β → γ) (a : Val ι α) (b : Val ι β) (ha : Plain L a) (hb : Plain L b)
    (hS : ∃ S, a.shape C = .ok S) (hT : ∃ T, b.shape C = .ok T) (r : Val ι γ)
    (h : ufunc2 C rf f a b = .ok r) :
    ∃ r', ufunc2 C rf' (fun q p => f p q) b a = .ok r' ∧ Alike C r r' := by
  have hc := ((C100_mixed C rf L f a b ha hb hS hT).1 r h).1
  obtain ⟨k1, k2, _⟩ := C100_mixed C rf' L (fun q p => f p q) b a hb ha hT hS
  obtain ⟨r', h'⟩ := k2 (swap_combines hc L ha hb)
  exact ⟨r', h', alike_combines hc L ha hb r' (k1 r' h').1⟩

/-- **C100** (shape). The shape of the result is the broadcast shape of the operands (or does not exist if
they clash). -/
theorem C100_shape (C : Coordinates ι) (rf : Head → Head → Bool) (L : String → List String) (f : α → β → γ)
    (a : Val ι α) (b : Val ι β) (ha : Plain L a) (hb : Plain L b) (S T : Shape) (hS : a.shape C = .ok S)
    (hT : b.shape C = .ok T) (r : Val ι γ) (h : ufunc2 C rf f a b = .ok r) :
    SameOutcome (r.shape C) (broadcastShapes [S, T]) := by
  obtain ⟨hc, hr⟩ := (C100_mixed C rf L f a b ha hb ⟨S, hS⟩ ⟨T, hT⟩).1 r h
  obtain ⟨wS, jS⟩ := (shape_main C ha).1 S hS
  obtain ⟨wT, jT⟩ := (shape_main C hb).1 T hT
  obtain ⟨hok, herr⟩ := shape_main C hr
  have hw : ∀ s ∈ [S, T], WF s := by simp [wS, wT]
  have hh : ∀ ax m, HasSize [S, T] ax m ↔ get? S ax = some m ∨ get? T ax = some m := by
    intro ax m; simp [HasSize]
  have hz := fun ax => size_combines hc ax ha hb
  have h1 : ∀ ax m, m ≠ 1 → (Size r ax m ↔ HasSize [S, T] ax m) := by
    intro ax m hm
    rw [(hz ax).2 m hm, hh, (jS ax).2 m hm, (jT ax).2 m hm]
  have he : ∀ ax, (∃ m, Size r ax m) ↔ ∃ m, HasSize [S, T] ax m := by
    intro ax
    rw [(hz ax).1, ← (jS ax).1, ← (jT ax).1]
    simp only [hh, exists_or]
    have key : ∀ X : Shape, ax ∈ keys X ↔ ∃ m, get? X ax = some m := fun X =>
      ⟨fun h => exists_get?_of_mem h, fun ⟨m, h⟩ => mem_keys_of_get? h⟩
    rw [key S, key T]
  cases hrs : r.shape C with
  | ok U =>
    cases hbs : broadcastShapes [S, T] with
    | ok V => exact joins_same (hok U hrs) (joins_bs hw hbs) he h1
    | error e =>
      obtain ⟨_, ax, m, n, hm, hn, h2, h3, h4⟩ := clash_bs hw hbs
      have e1 := (((hok U hrs).2 ax).2 m h3).2 ((h1 ax m h3).2 hm)
      have e2 := (((hok U hrs).2 ax).2 n h4).2 ((h1 ax n h4).2 hn)
      rw [e1] at e2
      cases e2
      exact absurd rfl h2
  | error e =>
    obtain ⟨rfl, ax, m, n, hm, hn, h2, h3, h4⟩ := herr e hrs
    have hcl : Clash [S, T] := ⟨ax, m, n, (h1 ax m h3).1 hm, (h1 ax n h4).1 hn, h2, h3, h4⟩
    obtain ⟨e', he'⟩ := (C01_broadcast_shapes_error_iff _ hw).2 hcl
    rw [he', C01_broadcast_shapes_error_kind _ hw e' he']
    exact rfl

/-- **C100** (vectors of different types). They cannot be combined, whatever they contain. -/
theorem C100_type_error (C : Coordinates ι) (rf : Head → Head → Bool) (f : α → β → γ) (cls cls' : String)
    (cs : List (String × Val ι α)) (cs' : List (String × Val ι β)) (h : cls ≠ cls') :
    ufunc2 C rf f (.vec cls cs) (.vec cls' cs') = .error .typeError := by
  have hno : componentsFor cls (.vec cls' cs') = none := if_neg (Ne.symm h)
  have hno' : componentsFor cls' (.vec cls cs) = none := if_neg h
  exact unanswered (fun h => h.1) (by simp only [head, attempt, hno]; cases componentsFor cls _ <;> rfl)
    (by simp only [head, attempt, hno'])

/-- **C100** (a function on the left). Its outputs are combined with the other operand, and its coordinates
are kept: if the other operand is a scalar array, for shapes which can be broadcast. -/
theorem C100_function_left_partial (C : Coordinates ι) (rf : Head → Head → Bool) (L : String → List String)
    (f : α → β → γ) (i : ι) (o : Val ι α) (b : Val ι β) (ho : Plain L o) (hb : Plain L b)
    (hS : ∃ S, o.shape C = .ok S) (hT : ∃ T, b.shape C = .ok T)
    (hfit : ∀ y, b = .sa y → ∃ S U, shape C (.func i o) = .ok S ∧ broadcastShapes [S, y.shape] = .ok U) :
    (∀ r, ufunc2 C rf f (.func i o) b = .ok r → ∃ r', r = .func i r' ∧ Combines C f o b r' ∧ Plain L r') ∧
    ((∃ r', Combines C f o b r') → ∃ r, ufunc2 C rf f (.func i o) b = .ok r) ∧
    ∀ e, ufunc2 C rf f (.func i o) b = .error e → e = .valueError ∨ e = .typeError := by
  have hm := meets_map (Q := fun r => ∃ r', r = .func i r' ∧ Combines C f o b r') (Val.func i)
    (main C rf L f (o.depth + 1 + b.depth) o b ho hb (by omega) hS hT) (fun r h => ⟨r, rfl, h⟩)
    fun r ⟨r', _, h⟩ => ⟨r', h⟩
  have hnn : ¬ (isNumber (.func i o) ∧ b.isNumber) := fun h => h.1
  have hbf := plain_not_function hb
  have hdep : ufunc2 C rf f (.func i o) b = ufunc2Aux C rf f (o.depth + 1 + b.depth + 1) (.func i o) b := by
    simp only [ufunc2, depth]
  obtain ⟨r1, r2⟩ := reply_of_eq (P := fun r => ∃ r', r = .func i r' ∧ Combines C f o b r')
    (attempt_left C f (ufunc2Aux C rf f (o.depth + 1 + b.depth)) i o hbf)
  have hother : attempt C f (ufunc2Aux C rf f (o.depth + 1 + b.depth)) b.head (.func i o) b = .ok none := by
    cases hb with
    | num => rfl
    | @sa y hy =>
      obtain ⟨S, U, h1, h2⟩ := hfit y rfl
      have h3 : shape C (.sa y : Val ι β) = .ok y.shape := by simp only [shape]
      simp only [head, attempt, h1, h3, h2, bind, Except.bind]
      rfl
    | ua => rfl
    | vec => rfl
  obtain ⟨m1, m2, m3⟩ := search hnn hm r1 (.inl hother) (.inl r2)
  rw [← hdep] at m1 m2 m3
  refine ⟨fun r h => ?_, fun ⟨r', h⟩ => m2 ⟨_, r', rfl, h⟩, m3⟩
  obtain ⟨r', h1, h2⟩ := m1 r h
  exact ⟨r', h1, h2, plain_combines h2 ho hb⟩

/-- **C100** (a function on the right). -/
theorem C100_function_right_partial (C : Coordinates ι) (rf : Head → Head → Bool) (L : String → List String)
    (f : α → β → γ) (a : Val ι α) (j : ι) (o : Val ι β) (ha : Plain L a) (ho : Plain L o)
    (hS : ∃ S, a.shape C = .ok S) (hT : ∃ T, o.shape C = .ok T)
    (hfit : ∀ x, a = .sa x → ∃ T U, shape C (.func j o) = .ok T ∧ broadcastShapes [x.shape, T] = .ok U) :
    (∀ r, ufunc2 C rf f a (.func j o) = .ok r → ∃ r', r = .func j r' ∧ Combines C f a o r' ∧ Plain L r') ∧
    ((∃ r', Combines C f a o r') → ∃ r, ufunc2 C rf f a (.func j o) = .ok r) ∧
    ∀ e, ufunc2 C rf f a (.func j o) = .error e → e = .valueError ∨ e = .typeError := by
  have hm := meets_map (Q := fun r => ∃ r', r = .func j r' ∧ Combines C f a o r') (Val.func j)
    (main C rf L f (a.depth + (o.depth + 1)) a o ha ho (by omega) hS hT) (fun r h => ⟨r, rfl, h⟩)
    fun r ⟨r', _, h⟩ => ⟨r', h⟩
  have hnn : ¬ (a.isNumber ∧ isNumber (.func j o)) := fun h => h.2
  have haf := plain_not_function ha
  have hdep : ufunc2 C rf f a (.func j o) = ufunc2Aux C rf f (a.depth + (o.depth + 1) + 1) a (.func j o) := by
    simp only [ufunc2, depth]
  obtain ⟨r1, r2⟩ := reply_of_eq (P := fun r => ∃ r', r = .func j r' ∧ Combines C f a o r')
    (attempt_right C f (ufunc2Aux C rf f (a.depth + (o.depth + 1))) j o haf)
  have hother : attempt C f (ufunc2Aux C rf f (a.depth + (o.depth + 1))) a.head a (.func j o) = .ok none := by
    cases ha with
    | num => rfl
    | @sa x hx =>
      obtain ⟨S, U, h1, h2⟩ := hfit x rfl
      have h3 : shape C (.sa x : Val ι α) = .ok x.shape := by simp only [shape]
      simp only [head, attempt, h1, h3, h2, bind, Except.bind]
      rfl
    | ua => rfl
    | vec => simp only [head, attempt]; cases componentsFor _ _ <;> rfl
  obtain ⟨m1, m2, m3⟩ := search hnn hm (.inl hother) r1 (.inr r2)
  rw [← hdep] at m1 m2 m3
  refine ⟨fun r h => ?_, fun ⟨r', h⟩ => m2 ⟨_, r', rfl, h⟩, m3⟩
  obtain ⟨r', h1, h2⟩ := m1 r h
  exact ⟨r', h1, h2, plain_combines h2 ha ho⟩

/-- **C100** (two functions). If their coordinates differ the operation raises; otherwise the outputs are
combined, and the coordinates are those of the left operand. -/
theorem C100_functions (C : Coordinates ι) (rf : Head → Head → Bool) (L : String → List String)
    (f : α → β → γ) (i j : ι) (o : Val ι α) (o' : Val ι β) (ho : Plain L o) (ho' : Plain L o')
    (hS : ∃ S, o.shape C = .ok S) (hT : ∃ T, o'.shape C = .ok T) :
    (C.differ j i = .ok true → ufunc2 C rf f (.func i o) (.func j o') = .error .inputValueError) ∧
    (∀ e, C.differ j i = .error e → ufunc2 C rf f (.func i o) (.func j o') = .error e) ∧
    (C.differ j i = .ok false →
      (∀ r, ufunc2 C rf f (.func i o) (.func j o') = .ok r →
        ∃ r', r = .func i r' ∧ Combines C f o o' r' ∧ Plain L r') ∧
      ((∃ r', Combines C f o o' r') → ∃ r, ufunc2 C rf f (.func i o) (.func j o') = .ok r) ∧
      ∀ e, ufunc2 C rf f (.func i o) (.func j o') = .error e → e = .valueError ∨ e = .typeError) := by
  have hm := meets_map (Q := fun r => ∃ r', r = .func i r' ∧ Combines C f o o' r') (Val.func i)
    (main C rf L f (o.depth + 1 + (o'.depth + 1)) o o' ho ho' (by omega) hS hT) (fun r h => ⟨r, rfl, h⟩)
    fun r ⟨r', _, h⟩ => ⟨r', h⟩
  have hnn : ¬ (isNumber (.func i o) ∧ isNumber (.func j o')) := fun h => h.1
  have hdep : ufunc2 C rf f (.func i o) (.func j o') =
      ufunc2Aux C rf f (o.depth + 1 + (o'.depth + 1) + 1) (.func i o) (.func j o') := by
    simp only [ufunc2, depth]
  have hat : attempt C f (ufunc2Aux C rf f (o.depth + 1 + (o'.depth + 1))) .function (.func i o) (.func j o') =
      (do
        checkInputs C (some i) (some j)
        let r ← ufunc2Aux C rf f (o.depth + 1 + (o'.depth + 1)) o o'
        .ok (some (.func i r))) := rfl
  have hce : ∀ e, checkInputs C (some i) (some j) = .error e →
      ufunc2 C rf f (.func i o) (.func j o') = .error e := by
    intro e he
    rw [hdep, ufunc2Aux_succ C rf f _ hnn]
    have hae : attempt C f (ufunc2Aux C rf f (o.depth + 1 + (o'.depth + 1))) .function (.func i o)
      (.func j o') = .error e := by rw [hat, he]; rfl
    cases hrf : rf (head (.func i o)) (head (.func j o')) <;>
    · simp only [if_true, if_false, head, Bool.false_eq_true]
      rw [hae]
      rfl
  refine ⟨fun h => hce _ ?_, fun e h => hce e ?_, fun h => ?_⟩
  · simp only [checkInputs, h, bind, Except.bind, if_true]
  · simp only [checkInputs, h, bind, Except.bind]
  · have hat' : attempt C f (ufunc2Aux C rf f (o.depth + 1 + (o'.depth + 1))) .function (.func i o)
        (.func j o') = (do
          let r ← (do
            let r ← ufunc2Aux C rf f (o.depth + 1 + (o'.depth + 1)) o o'
            .ok (.func i r) : R (Val ι γ))
          .ok (some r)) := by
      rw [hat]
      have : checkInputs C (some i) (some j) = .ok () := by
        simp only [checkInputs, h, bind, Except.bind, Bool.false_eq_true, if_false]
      rw [this]
      exact bind_assoc_ok _ _
    obtain ⟨r1, r2⟩ := reply_of_eq (P := fun r => ∃ r', r = .func i r' ∧ Combines C f o o' r') hat'
    obtain ⟨m1, m2, m3⟩ := search hnn hm r1 r1 (.inl r2)
    rw [← hdep] at m1 m2 m3
    refine ⟨fun r h => ?_, fun ⟨r', h⟩ => m2 ⟨_, r', rfl, h⟩, m3⟩
    obtain ⟨r', h1, h2⟩ := m1 r h
    exact ⟨r', h1, h2, plain_combines h2 ho ho'⟩

/-! ### Examples and limits -/

theorem plain_vec {L : String → List String} {cls : String} {cs : List (String × Val ι α)}
    (hn : keys cs = L cls) (hd : (L cls).Nodup) (h0 : L cls ≠ []) (h : ∀ p ∈ cs, Plain L p.2) :
    Plain L (.vec cls cs) := .vec hn hd h0 fun _ _ hc => h _ (mem_of_get? hc)

/-- coordinates which are scalar arrays -/
def exCoordinates : Coordinates (SA Nat) := ⟨fun i => .ok i.shape, FA.differ (fun p q => decide (p ≠ q))⟩

/-- the components of the vectors of the examples -/
def exLayout (cls : String) : List String := if cls = "Cartesian2dVectorArray" then ["x", "y"] else []

/-- numpy asks from left to right -/
def exLeftFirst : Head → Head → Bool := fun _ _ => false

def exScalarT : SA Nat := ⟨["t"], ND.ofList [2] [10, 20] 0⟩
def exMeasured : UA Nat := ⟨⟨["t"], ND.ofList [2] [1, 2] 0⟩, ⟨["t", axisD], ND.ofList [2, 2] [1, 3, 2, 4] 0⟩⟩
def exVelocity : Val (SA Nat) Nat := .vec "Cartesian2dVectorArray" [("x", .num 5), ("y", .ua exMeasured)]

theorem plain_exVelocity : Plain exLayout exVelocity := by
  refine plain_vec (by decide) (by decide) (by decide) fun p hp => ?_
  simp only [List.mem_cons, List.not_mem_nil, or_false] at hp
  rcases hp with rfl | rfl
  · exact .num 5
  · exact .ua ⟨⟨rfl, by decide⟩, ⟨rfl, by decide⟩, by decide⟩

theorem plain_exScalarT : Plain exLayout (.sa exScalarT : Val (SA Nat) Nat) := .sa ⟨rfl, by decide⟩

/-- Shows a value: its class, the names of its parts, their shapes and elements. -/
def exShow : Val (SA Nat) Nat → List (String × Shape × List Nat)
  | .num x => [("number", [], [x])]
  | .sa a => [("scalar", a.shape, a.nd.toList)]
  | .ua u => [("nominal", u.nominal.shape, u.nominal.nd.toList),
      ("samples", u.distribution.shape, u.distribution.nd.toList)]
  | .vec _ [("x", .sa a), ("y", .ua u)] => [("x", a.shape, a.nd.toList), ("y", u.nominal.shape, u.nominal.nd.toList),
      ("y samples", u.distribution.shape, u.distribution.nd.toList)]
  | .vec cls cs => [(cls, (keys cs).map (fun k => (k, 0)), [])]
  | .func i o => [("coordinates", i.shape, i.nd.toList), ("outputs", (o.asScalar.map SA.shape).getD [], [])]

/-- a scalar on the left, a vector with an uncertain component on the right -/
example : (ufunc2 exCoordinates exLeftFirst (· + ·) (.sa exScalarT) exVelocity).map exShow =
    .ok [("x", [("t", 2)], [15, 25]), ("y", [("t", 2)], [11, 22]),
      ("y samples", [("t", 2), (axisD, 2)], [11, 13, 22, 24])] := by decide +kernel

example : ∃ r', ufunc2 exCoordinates exLeftFirst (fun q p => p + q) exVelocity (.sa exScalarT) = .ok r' := by
  have hS : ∃ S, shape exCoordinates (.sa exScalarT : Val (SA Nat) Nat) = .ok S := ⟨_, rfl⟩
  have hT : ∃ T, shape exCoordinates exVelocity = .ok T := ⟨[("t", 2)], by decide +kernel⟩
  cases h : ufunc2 exCoordinates exLeftFirst (· + ·) (.sa exScalarT) exVelocity with
  | ok r =>
    obtain ⟨r', h', _⟩ := C100_commutes exCoordinates exLeftFirst exLeftFirst exLayout (· + ·) _ _
      plain_exScalarT plain_exVelocity hS hT r h
    exact ⟨r', h'⟩
  | error e =>
    have : (ufunc2 exCoordinates exLeftFirst (· + ·) (.sa exScalarT) exVelocity).map exShow = .error e := by
      rw [h]; rfl
    have h' : (ufunc2 exCoordinates exLeftFirst (· + ·) (.sa exScalarT) exVelocity).map exShow =
      .ok [("x", [("t", 2)], [15, 25]), ("y", [("t", 2)], [11, 22]),
        ("y samples", [("t", 2), (axisD, 2)], [11, 13, 22, 24])] := by decide +kernel
    rw [h'] at this
    cases this

example (r : Val (SA Nat) Nat) (h : ufunc2 exCoordinates exLeftFirst (· + ·) exVelocity (.sa exScalarT) = .ok r) :
    SameOutcome (r.shape exCoordinates) (.ok [("t", 2)]) :=
  C100_shape exCoordinates exLeftFirst exLayout (· + ·) exVelocity (.sa exScalarT) plain_exVelocity
    plain_exScalarT [("t", 2)] [("t", 2)] (by decide +kernel) rfl r h

example : ufunc2 exCoordinates exLeftFirst (· + ·) exVelocity (.vec "SpectralVectorArray" [("wavelength", .num 1)]) =
    .error .typeError := C100_type_error _ _ _ _ _ _ _ (by decide)

/-- a function with three coordinates whose output is constant along them -/
def exFlatLine : Val (SA Nat) Nat := .func ⟨["t"], ND.ofList [3] [1, 2, 3] 0⟩ (.sa ⟨["t"], ND.ofList [1] [7] 0⟩)

/-- a function whose outputs match its coordinates -/
def exTrend : Val (SA Nat) Nat := .func ⟨["t"], ND.ofList [2] [1, 2] 0⟩ (.sa ⟨["t"], ND.ofList [2] [7, 8] 0⟩)

example : (∃ S U, shape exCoordinates exTrend = .ok S ∧ broadcastShapes [S, exScalarT.shape] = .ok U) :=
  ⟨[("t", 2)], [("t", 2)], by decide +kernel, by decide⟩

example : (ufunc2 exCoordinates exLeftFirst (· * ·) (.sa exScalarT) exTrend).map exShow =
    .ok [("coordinates", [("t", 2)], [1, 2]), ("outputs", [("t", 2)], [])] ∧
    (ufunc2 exCoordinates exLeftFirst (· * ·) exTrend exTrend).map exShow =
    .ok [("coordinates", [("t", 2)], [1, 2]), ("outputs", [("t", 2)], [])] ∧
    exCoordinates.differ ⟨["t"], ND.ofList [2] [1, 2] 0⟩ ⟨["t"], ND.ofList [2] [1, 2] 0⟩ = .ok false :=
  ⟨by decide +kernel, by decide +kernel, by decide +kernel⟩

/-- Which operand comes first matters for a function and a scalar whose sizes clash with its coordinates but
not with its outputs: a function on the left gives a function without a shape, a scalar on the left raises. -/
theorem C100_function_order_refuted :
    (ufunc2 exCoordinates exLeftFirst (· + ·) exFlatLine (.sa exScalarT)).map exShow =
      .ok [("coordinates", [("t", 3)], [1, 2, 3]), ("outputs", [("t", 2)], [])] ∧
    (ufunc2 exCoordinates exLeftFirst (· + ·) (.sa exScalarT) exFlatLine).map exShow = .error .valueError :=
  ⟨by decide +kernel, by decide +kernel⟩

/-- a vector whose components cannot be broadcast against each other -/
def exTorn : Val (SA Nat) Nat := .vec "Cartesian2dVectorArray"
  [("x", .sa ⟨["t"], ND.ofList [2] [1, 2] 0⟩), ("y", .sa ⟨["t"], ND.ofList [3] [1, 2, 3] 0⟩)]

def exScalarZ : SA Nat := ⟨["z"], ND.ofList [2] [10, 20] 0⟩

/-- The hypothesis that the shapes exist is needed: a vector without a shape can be combined with a scalar on
its right but not with one on its left. -/
theorem C100_torn_vector_refuted :
    (ufunc2 exCoordinates exLeftFirst (· + ·) exTorn (.sa exScalarZ)).map exShow =
      .ok [("Cartesian2dVectorArray", [("x", 0), ("y", 0)], [])] ∧
    (ufunc2 exCoordinates exLeftFirst (· + ·) (.sa exScalarZ) exTorn).map exShow = .error .valueError :=
  ⟨by decide +kernel, by decide +kernel⟩

/-- The hypothesis that the type decides the components is needed: among Cartesian vectors of any dimension, the
components missing on the left are dropped, and those missing on the right raise `KeyError`. -/
theorem C100_components_refuted :
    (ufunc2 exCoordinates exLeftFirst (· + ·) (.vec "CartesianNd" [("a", .num 1)])
      (.vec "CartesianNd" [("a", .num 1), ("b", .num 2)])).map exShow = .ok [("CartesianNd", [("a", 0)], [])] ∧
    (ufunc2 exCoordinates exLeftFirst (· + ·) (.vec "CartesianNd" [("a", .num 1), ("b", .num 2)])
      (.vec "CartesianNd" [("a", .num 1)])).map exShow = .error .keyError :=
  ⟨by decide +kernel, by decide +kernel⟩

end Val
end NA
