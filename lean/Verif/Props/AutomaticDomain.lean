import Verif.Scalar.Emath
import Verif.Scalar.IndexLemmas
import Verif.Props.Elementwise

/-!
# C128: functions with automatic domain
-/

namespace NA.Emath
open Dict
open SA (InRange)
variable {α β γ : Type}

/-- The result as an array of complex numbers. -/
def Result.value (embed : β → γ) : Result β γ → SA γ
  | .real a => ⟨a.axes, a.nd.map embed⟩
  | .complex a => a

def Result.isReal : Result β γ → Prop
  | .real _ => True
  | .complex _ => False

/-- Specification: all elements of all arguments are in their domains. -/
def AllInside (doms : List (α → Bool)) (inputs : List (SA α)) : Prop :=
  ∀ p ∈ doms.zip inputs, ∀ e, InRange p.2.shape e → p.1 (p.2.at' e) = true

/-- Specification: the complex function continues the real one. -/
def Continues (doms : List (α → Bool)) (embed : β → γ) (real : List α → β) (complex : List α → γ) : Prop :=
  ∀ xs, xs.length = doms.length → (∀ p ∈ doms.zip xs, p.1 p.2 = true) → embed (real xs) = complex xs

theorem inside_iff {a : SA α} (ha : a.WF) {axes : List String} (hn : axes.Nodup) {v : ND α} (h : a.aligned axes = .ok v) (dom : α → Bool) :
    inside dom v = true ↔ ∀ e, InRange a.shape e → dom (a.at' e) = true := by
  rw [← SA.aligned_forall ha hn h (fun x => dom x = true)]
  simp [inside]

theorem all_inside_iff : ∀ {inputs : List (SA α)} (_ : ∀ a ∈ inputs, a.WF) {axes : List String} (_ : axes.Nodup) {nds : List (ND α)}
    (_ : List.Forall₂ (fun a v => SA.aligned a axes = .ok v) inputs nds) (doms : List (α → Bool)),
    (doms.zip nds).all (fun p => inside p.1 p.2) = true ↔ AllInside doms inputs := by
  intro inputs h axes hn nds hf
  induction hf with
  | nil => intro doms; simp [AllInside]
  | @cons a v inputs nds hx hl ih =>
    intro doms
    cases doms with
    | nil => simp [AllInside]
    | cons d doms =>
      simp only [List.zip_cons_cons, List.all_cons, Bool.and_eq_true]
      rw [ih (fun b hb => h b (by simp [hb])) doms, inside_iff (h a (by simp)) hn hx d]
      unfold AllInside
      simp only [List.zip_cons_cons, List.forall_mem_cons]

open Classical in
/-- The function is one of two elementwise functions. -/
theorem emath_eq {doms : List (α → Bool)} {real : List α → β} {complex : List α → γ} {inputs : List (SA α)} (h : ∀ a ∈ inputs, a.WF) :
    emath doms real complex inputs = if AllInside doms inputs then (SA.ufuncN real inputs).map .real else (SA.ufuncN complex inputs).map .complex := by
  unfold emath SA.ufuncN
  cases hb : broadcastShapes (inputs.map SA.shape) with
  | error x => simp only [bind, Except.bind, Except.map]; split <;> rfl
  | ok s =>
    have hw := (broadcastShapes_joinOf (SA.wf_shapes h) hb).1
    simp only [bind, Except.bind]
    cases hm : inputs.mapM (fun a => a.aligned (keys s)) with
    | error x => simp only [Except.map]; split <;> rfl
    | ok nds =>
      simp only
      have hi := all_inside_iff h hw (SA.mapM_ok hm) doms
      by_cases hc : AllInside doms inputs
      · rw [if_pos (hi.2 hc), if_pos hc]
        cases ND.ufuncN real nds with
        | error x => rfl
        | ok nd =>
          simp only
          cases SA.mk? nd (keys s) <;> rfl
      · rw [if_neg (fun h => hc (hi.1 h)), if_neg hc]
        cases ND.ufuncN complex nds with
        | error x => rfl
        | ok nd =>
          simp only
          cases SA.mk? nd (keys s) <;> rfl

/-- **C128** (values). The result has the shape to which the arguments broadcast, and its value at every index is the complex function of the arguments there,
whether or not the elements at other indices made numpy leave the real numbers. -/
theorem C128_values {doms : List (α → Bool)} {embed : β → γ} {real : List α → β} {complex : List α → γ} (hc : Continues doms embed real complex)
    {inputs : List (SA α)} (h : ∀ a ∈ inputs, a.WF) (hl : inputs.length = doms.length) {r : Result β γ} (hr : emath doms real complex inputs = .ok r) :
    (r.value embed).WF ∧ broadcastShapes (inputs.map SA.shape) = .ok (r.value embed).shape ∧
    ∀ e, InRange (r.value embed).shape e → (r.value embed).at' e = complex (inputs.map (fun a => a.atB e)) := by
  rw [emath_eq h] at hr
  split at hr
  · next hin =>
    cases hu : SA.ufuncN real inputs with
    | error x => rw [hu] at hr; cases hr
    | ok q =>
      rw [hu] at hr; cases hr
      obtain ⟨h1, h2, h3⟩ := SA.ufuncN_ok h hu
      refine ⟨h1, h2, fun e he => ?_⟩
      change embed (q.at' e) = _
      rw [h3 e]
      refine hc _ (by simpa using hl) ?_
      intro p hp
      rw [List.zip_map_right, List.mem_map] at hp
      obtain ⟨⟨d, a⟩, hda, rfl⟩ := hp
      have ha : a ∈ inputs := (List.of_mem_zip hda).2
      refine hin (d, a) hda _ ?_
      exact SA.inRange_clipEnv (SA.wf_shapes h) h2 (List.mem_map_of_mem ha) he
  · cases hu : SA.ufuncN complex inputs with
    | error x => rw [hu] at hr; cases hr
    | ok q =>
      rw [hu] at hr; cases hr
      obtain ⟨h1, h2, h3⟩ := SA.ufuncN_ok h hu
      exact ⟨h1, h2, fun e _ => h3 e⟩

/-- **C128** (type). The result consists of real numbers exactly if all elements of all arguments are in their domains. -/
theorem C128_type {doms : List (α → Bool)} {real : List α → β} {complex : List α → γ} {inputs : List (SA α)} (h : ∀ a ∈ inputs, a.WF) {r : Result β γ}
    (hr : emath doms real complex inputs = .ok r) : r.isReal ↔ AllInside doms inputs := by
  rw [emath_eq h] at hr
  split at hr
  · next hin =>
    cases hu : SA.ufuncN real inputs with
    | error x => rw [hu] at hr; cases hr
    | ok q => rw [hu] at hr; cases hr; exact ⟨fun _ => hin, fun _ => trivial⟩
  · next hin =>
    cases hu : SA.ufuncN complex inputs with
    | error x => rw [hu] at hr; cases hr
    | ok q => rw [hu] at hr; cases hr; exact ⟨fun h => h.elim, fun h => (hin h).elim⟩

/-- **C128** (errors). The only error is that of shapes which clash. -/
theorem C128_error {doms : List (α → Bool)} {real : List α → β} {complex : List α → γ} {inputs : List (SA α)} (h : ∀ a ∈ inputs, a.WF) (x : Err) :
    emath doms real complex inputs = .error x ↔ broadcastShapes (inputs.map SA.shape) = .error x := by
  constructor
  · intro hr
    rw [emath_eq h] at hr
    split at hr
    · cases hu : SA.ufuncN real inputs with
      | error x' => rw [hu] at hr; cases hr; exact SA.ufuncN_error h hu
      | ok q => rw [hu] at hr; cases hr
    · cases hu : SA.ufuncN complex inputs with
      | error x' => rw [hu] at hr; cases hr; exact SA.ufuncN_error h hu
      | ok q => rw [hu] at hr; cases hr
  · intro hb
    unfold emath
    rw [hb]
    rfl

/-! ### Examples: square roots of squares, as pairs of a real and an imaginary part -/

def exRoot : List Int → Int
  | [x] => (Int.toNat x).sqrt
  | _ => 0
def exComplexRoot : List Int → Int × Int
  | [x] => if 0 ≤ x then ((Int.toNat x).sqrt, 0) else (0, (Int.toNat (-x)).sqrt)
  | _ => (0, 0)
def exDomain : List (Int → Bool) := [fun x => decide (0 ≤ x)]
theorem exContinues : Continues exDomain (fun x : Int => (x, (0 : Int))) exRoot exComplexRoot := by
  intro xs hl hp
  match xs, hl with
  | [x], _ =>
    have h1 : decide (0 ≤ x) = true := hp ((fun x => decide (0 ≤ x)), x) (by simp [exDomain])
    have h2 : 0 ≤ x := by simpa using h1
    simp [exRoot, exComplexRoot, h2]

def exMixed : SA Int := ⟨["t"], ND.ofList [2] [4, -9] 0⟩
def exPositive : SA Int := ⟨["t"], ND.ofList [2] [4, 9] 0⟩
theorem wf_exMixed : ∀ a ∈ [exMixed], a.WF := by
  intro a ha
  rw [List.mem_singleton] at ha; subst ha
  exact ⟨rfl, (by decide : ["t"].Nodup)⟩
theorem wf_exPositive : ∀ a ∈ [exPositive], a.WF := by
  intro a ha
  rw [List.mem_singleton] at ha; subst ha
  exact ⟨rfl, (by decide : ["t"].Nodup)⟩

theorem ok_exMixed : ∃ r, emath exDomain exRoot exComplexRoot [exMixed] = .ok r := by
  cases h : emath exDomain exRoot exComplexRoot [exMixed] with
  | ok r => exact ⟨r, rfl⟩
  | error x => rw [C128_error wf_exMixed] at h; rw [show broadcastShapes ([exMixed].map SA.shape) = .ok [("t", 2)] by decide] at h; cases h
theorem ok_exPositive : ∃ r, emath exDomain exRoot exComplexRoot [exPositive] = .ok r := by
  cases h : emath exDomain exRoot exComplexRoot [exPositive] with
  | ok r => exact ⟨r, rfl⟩
  | error x => rw [C128_error wf_exPositive] at h; rw [show broadcastShapes ([exPositive].map SA.shape) = .ok [("t", 2)] by decide] at h; cases h

-- the roots of 4 and -9 are 2 and 3i
example : ∃ r, emath exDomain exRoot exComplexRoot [exMixed] = .ok r ∧ ¬ r.isReal ∧
    ∀ e, InRange (r.value (fun x : Int => (x, (0 : Int)))).shape e →
      (r.value (fun x : Int => (x, (0 : Int)))).at' e = exComplexRoot [exMixed.atB e] := by
  obtain ⟨r, hr⟩ := ok_exMixed
  refine ⟨r, hr, ?_, (C128_values exContinues wf_exMixed rfl hr).2.2⟩
  rw [C128_type wf_exMixed hr]
  intro h
  have := h ((fun x => decide (0 ≤ x)), exMixed) (by simp [exDomain]) (fun _ => 1) (fun ax n hn => by
    change get? [("t", 2)] ax = some n at hn
    simp only [get?] at hn
    split at hn
    · cases hn; show 1 < 2; omega
    · cases hn)
  revert this
  decide
example : ∃ r, emath exDomain exRoot exComplexRoot [exPositive] = .ok r ∧ r.isReal := by
  obtain ⟨r, hr⟩ := ok_exPositive
  refine ⟨r, hr, ?_⟩
  rw [C128_type wf_exPositive hr]
  intro p hp e he
  simp only [exDomain, List.zip_cons_cons, List.zip_nil_right, List.mem_singleton] at hp
  subst hp
  have h1 : e "t" < 2 := he "t" 2 rfl
  change decide (0 ≤ exPositive.nd.get [e "t"]) = true
  have h2 : e "t" = 0 ∨ e "t" = 1 := by omega
  rcases h2 with h2 | h2 <;> rw [h2] <;> decide

end NA.Emath
