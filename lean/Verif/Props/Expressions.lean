import Verif.Scalar.Expression
import Verif.Props.LiftedKernels

/-!
# Expressions in strings (C118)
-/

namespace NA
open Dict
open SA (FitsIn InRange)
variable {α : Type}

namespace Formula

/-- Specification: the value of an expression for given values of its variables. -/
def value (v : String → α) : Formula α → α
  | .var n => v n
  | .const c => c
  | .op1 f x => f (x.value v)
  | .op2 f x y => f (x.value v) (y.value v)

/-- Specification: the expression written in Python with the arrays themselves, one ufunc after the other. -/
def apply (env : String → SA α) : Formula α → R (SA α)
  | .var n => .ok (env n)
  | .const c => .ok (SA.scalar c)
  | .op1 f x => do SA.ufunc1 f (← x.apply env)
  | .op2 f x y => do
    let a ← x.apply env
    let b ← y.apply env
    SA.ufunc2 f a b

theorem mem_names {x : Formula α} {n : String} : n ∈ x.names ↔ n ∈ x.vars := by simp [names]

theorem eval_eq (dflt : α) (x : Formula α) (d : Dict α) (v : String → α) (h : ∀ n ∈ x.vars, get? d n = some (v n)) :
    x.eval dflt d = x.value v := by
  induction x with
  | var n => simp [eval, value, h n (by simp [vars])]
  | const c => rfl
  | op1 f x ih => simp only [eval, value]; rw [ih h]
  | op2 f x y ih1 ih2 =>
    simp only [eval, value]
    rw [ih1 (fun n hn => h n (by simp [vars, hn])), ih2 (fun n hn => h n (by simp [vars, hn]))]

theorem value_congr (x : Formula α) {v w : String → α} (h : ∀ n ∈ x.vars, v n = w n) : x.value v = x.value w := by
  induction x with
  | var n => exact h n (by simp [vars])
  | const c => rfl
  | op1 f x ih => simp only [value]; rw [ih h]
  | op2 f x y ih1 ih2 =>
    simp only [value]
    rw [ih1 (fun n hn => h n (by simp [vars, hn])), ih2 (fun n hn => h n (by simp [vars, hn]))]

theorem fits_in_trans {s t u : Shape} (h1 : FitsIn s t) (h2 : FitsIn t u) : FitsIn s u := by
  intro ax m hm
  obtain ⟨n, hn, h⟩ := h1 ax m hm
  obtain ⟨k, hk, h'⟩ := h2 ax n hn
  exact ⟨k, hk, by omega⟩

/-- If the expression with the arrays succeeds, then every variable fits into the result. -/
theorem apply_ok {x : Formula α} {env : String → SA α} (hw : ∀ n ∈ x.vars, (env n).WF) {r : SA α} (hr : x.apply env = .ok r) :
    r.WF ∧ ∀ n ∈ x.vars, FitsIn (env n).shape r.shape := by
  induction x generalizing r with
  | var n =>
    cases hr
    exact ⟨hw n (by simp [vars]), fun m hm => by
      simp only [vars, List.mem_singleton] at hm
      subst hm
      exact fun _ k hk => ⟨k, hk, .inl rfl⟩⟩
  | const c => cases hr; exact ⟨⟨rfl, List.nodup_nil⟩, fun m hm => by simp [vars] at hm⟩
  | op1 f x ih =>
    cases hx : x.apply env with
    | error e => simp only [apply, hx, bind, Except.bind] at hr; cases hr
    | ok a =>
      obtain ⟨h1, h2⟩ := ih hw hx
      obtain ⟨c, c1, c2, c3, _⟩ := SA.C07_ufunc1_values f a h1
      simp only [apply, hx, bind, Except.bind] at hr
      rw [c1] at hr
      cases hr
      exact ⟨c2, fun n hn => by rw [c3]; exact h2 n hn⟩
  | op2 f x y ih1 ih2 =>
    cases hx : x.apply env with
    | error e => simp only [apply, hx, bind, Except.bind] at hr; cases hr
    | ok a =>
      cases hy : y.apply env with
      | error e => simp only [apply, hx, hy, bind, Except.bind] at hr; cases hr
      | ok b =>
        obtain ⟨a1, a2⟩ := ih1 (fun n hn => hw n (by simp [vars, hn])) hx
        obtain ⟨b1, b2⟩ := ih2 (fun n hn => hw n (by simp [vars, hn])) hy
        simp only [apply, hx, hy, bind, Except.bind] at hr
        obtain ⟨c1, c2, _⟩ := SA.ufunc2_ok a1 b1 hr
        have hp := SA.wf_pair a1 b1
        refine ⟨c1, fun n hn => ?_⟩
        simp only [vars, List.mem_append] at hn
        rcases hn with hn | hn
        · exact fits_in_trans (a2 n hn) (SA.fitsIn_of_broadcastShapes hp c2 (by simp))
        · exact fits_in_trans (b2 n hn) (SA.fitsIn_of_broadcastShapes hp c2 (by simp))

theorem apply_error {x : Formula α} {env : String → SA α} (hw : ∀ n ∈ x.vars, (env n).WF) {e : Err} (hr : x.apply env = .error e) :
    e = .valueError := by
  induction x generalizing e with
  | var n => cases hr
  | const c => cases hr
  | op1 f x ih =>
    cases hx : x.apply env with
    | error e' =>
      simp only [apply, hx, bind, Except.bind] at hr
      cases hr
      exact ih hw hx
    | ok a =>
      obtain ⟨c, c1, _⟩ := SA.C07_ufunc1_values f a (apply_ok (x := x) hw hx).1
      simp only [apply, hx, bind, Except.bind] at hr
      rw [c1] at hr
      cases hr
  | op2 f x y ih1 ih2 =>
    have w1 : ∀ n ∈ x.vars, (env n).WF := fun n hn => hw n (by simp [vars, hn])
    have w2 : ∀ n ∈ y.vars, (env n).WF := fun n hn => hw n (by simp [vars, hn])
    cases hx : x.apply env with
    | error e' =>
      simp only [apply, hx, bind, Except.bind] at hr
      cases hr
      exact ih1 w1 hx
    | ok a =>
      cases hy : y.apply env with
      | error e' =>
        simp only [apply, hx, hy, bind, Except.bind] at hr
        cases hr
        exact ih2 w2 hy
      | ok b =>
        simp only [apply, hx, hy, bind, Except.bind] at hr
        have a1 := (apply_ok w1 hx).1
        have b1 := (apply_ok w2 hy).1
        exact C01_broadcast_shapes_error_kind _ (SA.wf_pair a1 b1) e (SA.ufunc2_error a1 b1 hr)

theorem apply_main {x : Formula α} {env : String → SA α} {S : Shape} (h : ∀ n ∈ x.vars, Fits S (env n)) :
    ∃ r, x.apply env = .ok r ∧ Fits S r ∧ ∀ e, r.atB e = x.value (fun n => (env n).atB e) := by
  induction x with
  | var n => exact ⟨_, rfl, h n (by simp [vars]), fun _ => rfl⟩
  | const c => exact ⟨_, rfl, fits_scalar S c, fun _ => rfl⟩
  | op1 f x ih =>
    obtain ⟨a, a1, a2, a3⟩ := ih h
    obtain ⟨c, c1, c2, _, c3⟩ := ufunc1_fits' f a2
    exact ⟨c, by simp only [apply, a1, bind, Except.bind]; exact c1, c2, fun e => by rw [c3, a3]; rfl⟩
  | op2 f x y ih1 ih2 =>
    obtain ⟨a, a1, a2, a3⟩ := ih1 (fun n hn => h n (by simp [vars, hn]))
    obtain ⟨b, b1, b2, b3⟩ := ih2 (fun n hn => h n (by simp [vars, hn]))
    obtain ⟨c, c1, c2, c3⟩ := ufunc2_fits' f a2 b2
    exact ⟨c, by simp only [apply, a1, b1, bind, Except.bind]; exact c1, c2, fun e => by rw [c3, a3, b3]; rfl⟩

end Formula

/-- Specification: the value of a variable is the local one if there is one, and else the global one. -/
def Bound {V : Type} (local_ global_ : Dict V) (name : String) (a : V) : Prop :=
  get? local_ name = some a ∨ (get? local_ name = none ∧ get? global_ name = some a)

theorem getArguments_ok {V : Type} {names : List String} {loc glob : Dict V} {env : String → V}
    (h : ∀ n ∈ names, Bound loc glob n (env n)) : getArguments names loc glob = .ok (names.map env) := by
  unfold getArguments
  apply SA.mapM_map_ok
  intro n hn
  rcases h n hn with h | ⟨h1, h2⟩
  · rw [h]
  · rw [h1, h2]

theorem getArguments_missing {V : Type} {names : List String} {loc glob : Dict V} {n : String} (hn : n ∈ names)
    (h1 : get? loc n = none) (h2 : get? glob n = none) : getArguments names loc glob = .error .keyError := by
  unfold getArguments
  induction names with
  | nil => cases hn
  | cons m ns ih =>
    rw [List.mapM_cons]
    rcases List.mem_cons.1 hn with rfl | hn
    · rw [h1, h2]; rfl
    · have := ih hn
      cases hl : get? loc m with
      | some a => simp only [bind, Except.bind] at this ⊢; rw [this]
      | none =>
        cases hg : get? glob m with
        | some a => simp only [bind, Except.bind] at this ⊢; rw [this]
        | none => rfl

theorem zip_names_map {β : Type} (l : List String) (f : String → β) : l.zip (l.map f) = l.map (fun n => (n, f n)) := by
  induction l with
  | nil => rfl
  | cons a l ih => simp [ih]

theorem get?_map_names {β : Type} {l : List String} {f : String → β} {n : String} (hn : n ∈ l) :
    get? (l.map (fun n => (n, f n))) n = some (f n) := by
  induction l with
  | nil => cases hn
  | cons m l ih =>
    rw [List.map_cons, get?_cons]
    split
    · next h => subst h; rfl
    · next h =>
      rcases List.mem_cons.1 hn with rfl | hn
      · simp at h
      · exact ih hn

/-- The expression is evaluated as soon as all its names are found and none of them is a keyword. -/
theorem evaluateNames_eq {V W : Type} {handler : Dict V → R W} {x : Formula α} {loc glob : Dict V} {env : String → V}
    (hv : x.vars ≠ []) (hk : ∀ n ∈ x.vars, n ∉ callKeywords) (hb : ∀ n ∈ x.vars, Bound loc glob n (env n)) :
    evaluateNames handler x.names loc glob = handler (x.names.map (fun n => (n, env n))) := by
  unfold evaluateNames
  rw [getArguments_ok (env := env) (fun n hn => hb n (Formula.mem_names.1 hn))]
  simp only [bind, Except.bind, zip_names_map]
  rw [if_neg, if_neg]
  · obtain ⟨n, hn⟩ := List.exists_mem_of_ne_nil _ hv
    have := Formula.mem_names.2 hn
    intro h
    rw [List.isEmpty_iff, List.map_eq_nil_iff] at h
    rw [h] at this
    cases this
  · intro h
    obtain ⟨n, hn, h⟩ := List.any_eq_true.1 h
    exact hk n (Formula.mem_names.1 hn) (by simpa using h)

/-- **C118** (names). A variable which is neither local nor global raises `KeyError`, whatever the type of the arrays. -/
theorem C118_missing {V W : Type} (handler : Dict V → R W) (x : Formula α) (loc glob : Dict V) (n : String) (hn : n ∈ x.vars)
    (h1 : get? loc n = none) (h2 : get? glob n = none) : evaluateNames handler x.names loc glob = .error .keyError := by
  unfold evaluateNames
  rw [getArguments_missing (Formula.mem_names.2 hn) h1 h2]
  rfl

/-- **C118** (the other direction of the conditions). If all variables are found, but one of them is named like a keyword of the
call, or there is no variable at all, then `TypeError` is raised, whatever the expression and the type of the arrays are. -/
theorem C118_type_error {V W : Type} (handler : Dict V → R W) (x : Formula α) (loc glob : Dict V) (env : String → V)
    (hb : ∀ n ∈ x.vars, Bound loc glob n (env n)) (h : x.vars = [] ∨ ∃ n ∈ x.vars, n ∈ callKeywords) :
    evaluateNames handler x.names loc glob = .error .typeError := by
  unfold evaluateNames
  rw [getArguments_ok (env := env) (fun n hn => hb n (Formula.mem_names.1 hn))]
  simp only [bind, Except.bind, zip_names_map]
  split
  · rfl
  · next hk =>
    rcases h with h | ⟨n, hn, hn'⟩
    · have : x.names = [] := by
        rw [List.eq_nil_iff_forall_not_mem]
        intro n hn
        have := Formula.mem_names.1 hn
        rw [h] at this
        cases this
      rw [this]
      rfl
    · exact absurd (List.any_eq_true.2 ⟨n, Formula.mem_names.2 hn, by simpa using hn'⟩) hk

namespace SA

/-- If the shapes of the variables broadcast to `S`, the expression written with the arrays has the shape `S`. -/
theorem apply_shape {x : Formula α} {env : String → SA α} (hw : ∀ n ∈ x.vars, (env n).WF) {S : Shape}
    (hB : broadcastShapes (x.names.map (fun n => (env n).shape)) = .ok S) :
    ∃ r, x.apply env = .ok r ∧ r.WF ∧ Same r.shape S ∧ ∀ e, InRange S e → r.at' e = x.value (fun n => (env n).atB e) := by
  have hss : ∀ s ∈ x.names.map (fun n => (env n).shape), Dict.WF s := by
    intro s hs
    obtain ⟨n, hn, rfl⟩ := List.mem_map.1 hs
    exact wf_shape (hw n (Formula.mem_names.1 hn))
  have hfit : ∀ n ∈ x.vars, Fits S (env n) := fun n hn =>
    ⟨hw n hn, fitsIn_of_broadcastShapes hss hB (List.mem_map.2 ⟨n, Formula.mem_names.2 hn, rfl⟩)⟩
  obtain ⟨r', a1, a2, a3⟩ := Formula.apply_main hfit
  obtain ⟨b1, b2⟩ := Formula.apply_ok hw a1
  obtain ⟨_, _, c3⟩ := C01_broadcast_shapes_ok _ hss S hB
  have hsame : Same r'.shape S := by
    intro ax
    cases hS : get? S ax with
    | none =>
      cases hr : get? r'.shape ax with
      | none => rfl
      | some m =>
        obtain ⟨n, hn, _⟩ := a2.2 ax m hr
        rw [hS] at hn
        cases hn
    | some n =>
      obtain ⟨⟨s, hs, h1⟩, _⟩ := c3 ax n hS
      obtain ⟨v, hv, rfl⟩ := List.mem_map.1 hs
      obtain ⟨m, hm, h⟩ := b2 v (Formula.mem_names.1 hv) ax n h1
      obtain ⟨k, hk, h'⟩ := a2.2 ax m hm
      rw [hS] at hk
      cases hk
      rw [hm]
      congr 1
      omega
  refine ⟨r', a1, b1, hsame, fun e he => ?_⟩
  rw [← a3 e, atB_eq_at' b1 (fun ax n hn => he ax n (by rw [← hsame ax]; exact hn))]

theorem not_clash_names {x : Formula α} {sh : String → Shape} (hw : ∀ n ∈ x.vars, Dict.WF (sh n))
    (hc : ¬ Clash (x.vars.map sh)) : ∃ S, broadcastShapes (x.names.map sh) = .ok S := by
  cases hB : broadcastShapes (x.names.map sh) with
  | ok S => exact ⟨S, rfl⟩
  | error e =>
    exfalso
    have hss : ∀ s ∈ x.names.map sh, Dict.WF s := by
      intro s hs
      obtain ⟨n, hn, rfl⟩ := List.mem_map.1 hs
      exact hw n (Formula.mem_names.1 hn)
    obtain ⟨ax, m, n, ⟨s, hs, h1⟩, ⟨t, ht, h2⟩, h⟩ := (C01_broadcast_shapes_error_iff _ hss).1 ⟨e, hB⟩
    obtain ⟨a, ha, rfl⟩ := List.mem_map.1 hs
    obtain ⟨b, hb, rfl⟩ := List.mem_map.1 ht
    exact hc ⟨ax, m, n, ⟨_, List.mem_map.2 ⟨a, Formula.mem_names.1 ha, rfl⟩, h1⟩,
      ⟨_, List.mem_map.2 ⟨b, Formula.mem_names.1 hb, rfl⟩, h2⟩, h⟩

theorem eval_names (dflt : α) (x : Formula α) (v : String → α) : x.eval dflt (x.names.map (fun n => (n, v n))) = x.value v :=
  Formula.eval_eq _ _ _ _ (fun _ hn => get?_map_names (f := v) (Formula.mem_names.2 hn))

/-- **C118.** `na.numexpr.evaluate` of an expression with at least one variable, none of which is named like a keyword of the call,
gives the array which the same expression gives if it is written in Python with the arrays themselves: the same axes
with the same lengths, and at every named index the value of the expression for the elements of its variables at this index. -/
theorem C118_evaluate_partial (dflt : α) (x : Formula α) (loc glob : Dict (SA α)) (env : String → SA α)
    (hv : x.vars ≠ []) (hk : ∀ n ∈ x.vars, n ∉ callKeywords) (hb : ∀ n ∈ x.vars, Bound loc glob n (env n))
    (hw : ∀ n ∈ x.vars, (env n).WF) (hc : ¬ Clash (x.vars.map (fun n => (env n).shape))) :
    ∃ r r', evaluateExpression dflt x loc glob = .ok r ∧ x.apply env = .ok r' ∧ r.WF ∧ r'.WF ∧ Same r.shape r'.shape ∧
      ∀ e, InRange r.shape e →
        r.at' e = x.value (fun n => (env n).atB e) ∧ r'.at' e = x.value (fun n => (env n).atB e) := by
  obtain ⟨S, hB⟩ := not_clash_names (fun n hn => wf_shape (hw n hn)) hc
  obtain ⟨r, r1, r2, r3, r4⟩ := C93_evaluate (x.eval dflt) (x.names.map (fun n => (n, env n))) (by
    intro p hp
    obtain ⟨n, hn, rfl⟩ := List.mem_map.1 hp
    exact hw n (Formula.mem_names.1 hn)) S (by rw [List.map_map]; exact hB)
  obtain ⟨r', a1, a2, a3, a4⟩ := apply_shape hw hB
  refine ⟨r, r', by rw [evaluateExpression, evaluateNames_eq hv hk hb, r1], a1, r2, a2, fun ax => by rw [r3, a3 ax],
    fun e he => ⟨?_, a4 e (r3 ▸ he)⟩⟩
  rw [r4, List.map_map]
  exact eval_names dflt x (fun n => (env n).atB e)

/-- **C118** (shapes). If the shapes of two variables clash, both ways of evaluating raise `ValueError`. -/
theorem C118_clash (dflt : α) (x : Formula α) (loc glob : Dict (SA α)) (env : String → SA α)
    (hk : ∀ n ∈ x.vars, n ∉ callKeywords) (hb : ∀ n ∈ x.vars, Bound loc glob n (env n))
    (hw : ∀ n ∈ x.vars, (env n).WF) (hc : Clash (x.vars.map (fun n => (env n).shape))) :
    evaluateExpression dflt x loc glob = .error .valueError ∧ x.apply env = .error .valueError := by
  obtain ⟨ax, m, n, ⟨s, hs, h1⟩, ⟨t, ht, h2⟩, h3, h4, h5⟩ := hc
  obtain ⟨a, ha, rfl⟩ := List.mem_map.1 hs
  obtain ⟨b, hb', rfl⟩ := List.mem_map.1 ht
  refine ⟨?_, ?_⟩
  · rw [evaluateExpression, evaluateNames_eq (List.ne_nil_of_mem ha) hk hb]
    apply C93_evaluate_error
    · intro p hp
      obtain ⟨n, hn, rfl⟩ := List.mem_map.1 hp
      exact hw n (Formula.mem_names.1 hn)
    · refine ⟨ax, m, n, ⟨_, ?_, h1⟩, ⟨_, ?_, h2⟩, h3, h4, h5⟩
      · simp only [List.map_map, List.mem_map, Function.comp_apply]
        exact ⟨a, Formula.mem_names.2 ha, rfl⟩
      · simp only [List.map_map, List.mem_map, Function.comp_apply]
        exact ⟨b, Formula.mem_names.2 hb', rfl⟩
  · cases hr : x.apply env with
    | error e => rw [Formula.apply_error hw hr]
    | ok r =>
      obtain ⟨_, h⟩ := Formula.apply_ok hw hr
      obtain ⟨k, hk, h6⟩ := h a ha ax m h1
      obtain ⟨l, hl, h7⟩ := h b hb' ax n h2
      rw [hk] at hl
      cases hl
      omega

/-- `2*a - b`, where `a` is local and `b` global. -/
def exFormula : Formula Int := .op2 (· - ·) (.op2 (· * ·) (.const 2) (.var "a")) (.var "b")

def exVarA : SA Int := ⟨["x"], ND.vec [1, 2, 3]⟩
def exVarB : SA Int := ⟨["y"], ND.vec [10, 20]⟩
def exVarC : SA Int := ⟨["x"], ND.vec [1, 2]⟩

def exVars (b : SA Int) : String → SA Int := fun n => if n = "a" then exVarA else b

theorem exVars_wf {b : SA Int} (hb : b.WF) (n : String) : (exVars b n).WF := by
  unfold exVars
  split
  · decide
  · exact hb

example : ∃ r r', evaluateExpression 0 exFormula [("a", exVarA)] [("b", exVarB), ("a", exVarB)] = .ok r ∧
    exFormula.apply (exVars exVarB) = .ok r' ∧ r.WF ∧ r'.WF ∧ Same r.shape r'.shape ∧ ∀ e, InRange r.shape e →
      r.at' e = exFormula.value (fun n => (exVars exVarB n).atB e) ∧ r'.at' e = exFormula.value (fun n => (exVars exVarB n).atB e) :=
  C118_evaluate_partial 0 exFormula _ _ (exVars exVarB) (by decide) (by decide +kernel) (by
    intro n hn
    simp only [exFormula, Formula.vars, List.nil_append, List.cons_append, List.mem_cons, List.not_mem_nil, or_false] at hn
    rcases hn with rfl | rfl
    · exact .inl rfl
    · exact .inr ⟨rfl, rfl⟩) (fun n _ => exVars_wf (by decide) n) (by
    intro h
    have h1 : exFormula.vars.map (fun n => (exVars exVarB n).shape) = [[("x", 3)], [("y", 2)]] := by decide
    rw [h1] at h
    obtain ⟨ax, m, n, ⟨s, hs, h1⟩, ⟨t, ht, h2⟩, h3, _⟩ := h
    simp only [List.mem_cons, List.not_mem_nil, or_false] at hs ht
    rcases hs with rfl | rfl <;> rcases ht with rfl | rfl <;> simp only [get?_cons, get?_nil] at h1 h2 <;>
      split at h1 <;> split at h2 <;> simp_all <;>
      (rename_i h4 h5; exact absurd (h4.trans h5.symm) (by decide)))

example : (evaluateExpression 0 exFormula [("a", exVarA)] [("b", exVarB), ("a", exVarB)]).toOption.map
    (fun r => (r.axes, r.nd.shape, r.nd.toList)) = some (["x", "y"], [3, 2], [-8, -18, -6, -16, -4, -14]) := by decide +kernel

example : evaluateExpression 0 exFormula [("a", exVarA), ("b", exVarC)] [] = .error .valueError ∧
    exFormula.apply (exVars exVarC) = .error .valueError :=
  C118_clash 0 exFormula _ _ (exVars exVarC) (by decide +kernel) (by
    intro n hn
    simp only [exFormula, Formula.vars, List.nil_append, List.cons_append, List.mem_cons, List.not_mem_nil, or_false] at hn
    rcases hn with rfl | rfl
    · exact .inl rfl
    · exact .inl rfl) (fun n _ => exVars_wf (by decide) n)
    ⟨"x", 3, 2, ⟨[("x", 3)], by decide, rfl⟩, ⟨[("x", 2)], by decide, rfl⟩, by decide, by decide, by decide⟩

example : evaluateExpression 0 exFormula [("a", exVarA)] [("c", exVarB)] = .error .keyError :=
  C118_missing _ exFormula _ _ "b" (by decide) rfl rfl

example : evaluateExpression 0 (.op1 (fun k : Int => -k) (.var "order")) [("order", exVarA)] [] = .error .typeError :=
  C118_type_error _ (.op1 (fun k : Int => -k) (.var "order")) _ _ (fun _ => exVarA) (by
    intro n hn
    simp only [Formula.vars, List.mem_cons, List.not_mem_nil, or_false] at hn
    subst hn
    exact .inl rfl) (.inr ⟨"order", by decide, by decide⟩)

/-- Not every expression can be evaluated: `-order` with an array named `order` has a value when it is written in Python, but
`na.numexpr.evaluate` raises `TypeError`, since the arrays are passed as keywords with the names of the variables. -/
theorem C118_keyword_refuted : ∃ (x : Formula Int) (loc : Dict (SA Int)) (env : String → SA Int) (r : SA Int),
    x.vars ≠ [] ∧ (∀ n ∈ x.vars, Bound loc [] n (env n) ∧ (env n).WF) ∧ x.apply env = .ok r ∧
      evaluateExpression 0 x loc [] = .error .typeError := by
  refine ⟨.op1 (fun k : Int => -k) (.var "order"), [("order", exVarA)], fun _ => exVarA, _, by decide, ?_, rfl,
    C118_type_error _ (.op1 (fun k : Int => -k) (.var "order")) _ _ (fun _ => exVarA) ?_ (.inr ⟨"order", by decide, by decide⟩)⟩
  · intro n hn
    simp only [Formula.vars, List.mem_cons, List.not_mem_nil, or_false] at hn
    subst hn
    exact ⟨.inl rfl, by decide⟩
  · intro n hn
    simp only [Formula.vars, List.mem_cons, List.not_mem_nil, or_false] at hn
    subst hn
    exact .inl rfl

/-- An expression without variables has a value, but `na.numexpr.evaluate` raises `TypeError`: there is no array which could
handle the call. -/
theorem C118_constant_refuted : ∃ (x : Formula Int) (r : SA Int), x.apply (fun _ => exVarA) = .ok r ∧ r.at' (fun _ => 0) = 6 ∧
    ∀ loc glob, evaluateExpression 0 x loc glob = .error .typeError :=
  ⟨.op2 (· * ·) (.const 2) (.const 3), ⟨[], ⟨[], fun _ => 6⟩⟩, by
    have h : (SA.ufunc2 (fun a b : Int => a * b) (SA.scalar 2) (SA.scalar 3)) = .ok ⟨[], ⟨[], fun _ => 6⟩⟩ := rfl
    exact h, rfl, fun loc glob => C118_type_error _ (.op2 (· * ·) (.const 2) (.const 3)) loc glob (fun _ => exVarA) (by simp [Formula.vars]) (.inl rfl)⟩

end SA

namespace UA

/-- **C118** (uncertain scalars). The nominal value is the one of the expression written with the nominal values, and the samples are
those of the expression written with the samples; variables without uncertainty take part in both. -/
theorem C118_uncertain_partial (dflt : α) (x : Formula α) (loc glob : Dict (UArg α)) (env : String → UArg α)
    (hv : x.vars ≠ []) (hk : ∀ n ∈ x.vars, n ∉ callKeywords) (hb : ∀ n ∈ x.vars, Bound loc glob n (env n))
    (hw : ∀ n ∈ x.vars, Fit (env n)) (hc : ¬ Clash (x.vars.map (fun n => (env n).nominal.shape)))
    (hc' : ¬ Clash (x.vars.map (fun n => (env n).distribution.shape))) :
    ∃ r a b, evaluateExpression dflt x loc glob = .ok r ∧ r.Valid ∧ x.apply (fun n => (env n).nominal) = .ok a ∧
      x.apply (fun n => (env n).distribution) = .ok b ∧ Same r.nominal.shape a.shape ∧ Same r.distribution.shape b.shape ∧
      (∀ e, InRange r.nominal.shape e →
        r.nominal.at' e = a.at' e ∧ r.nominal.at' e = x.value (fun n => (env n).nominal.atB e)) ∧
      ∀ e, InRange r.distribution.shape e →
        r.distribution.at' e = b.at' e ∧ r.distribution.at' e = x.value (fun n => (env n).distribution.atB e) := by
  have w1 : ∀ n ∈ x.vars, (env n).nominal.WF := fun n hn => (norm_ok (hw n hn).1 (hw n hn).2).2.1
  have w2 : ∀ n ∈ x.vars, (env n).distribution.WF := fun n hn => (norm_ok (hw n hn).1 (hw n hn).2).2.2.1
  obtain ⟨B, hB⟩ := SA.not_clash_names (fun n hn => SA.wf_shape (w1 n hn)) hc
  obtain ⟨C, hC⟩ := SA.not_clash_names (fun n hn => SA.wf_shape (w2 n hn)) hc'
  obtain ⟨a, a1, _, a3, a4⟩ := SA.apply_shape (env := fun n => (env n).nominal) w1 hB
  obtain ⟨b, b1, _, b3, b4⟩ := SA.apply_shape (env := fun n => (env n).distribution) w2 hC
  obtain ⟨r, r1, r2, r3, r4, r5, r6⟩ := C99_uncertain_evaluate (x.eval dflt) (x.names.map (fun n => (n, env n))) (by
    intro p hp
    obtain ⟨n, hn, rfl⟩ := List.mem_map.1 hp
    exact hw n (Formula.mem_names.1 hn)) B C (by rw [List.map_map]; exact hB) (by rw [List.map_map]; exact hC)
  refine ⟨r, a, b, by rw [evaluateExpression, evaluateNames_eq hv hk hb, r1], r2, a1, b1, fun ax => by rw [r3, a3 ax],
    fun ax => by rw [r4, b3 ax], fun e he => ?_, fun e he => ?_⟩
  · have : r.nominal.at' e = x.value (fun n => (env n).nominal.atB e) := by
      rw [r5, List.map_map]
      exact SA.eval_names dflt x (fun n => (env n).nominal.atB e)
    exact ⟨by rw [this, a4 e (r3 ▸ he)], this⟩
  · have : r.distribution.at' e = x.value (fun n => (env n).distribution.atB e) := by
      rw [r6, List.map_map]
      exact SA.eval_names dflt x (fun n => (env n).distribution.atB e)
    exact ⟨by rw [this, b4 e (r4 ▸ he)], this⟩

example : ∃ r a b, evaluateExpression 0 SA.exFormula [("a", .plain SA.exPolyX)] [("b", .unc exCloud)] = .ok r ∧ r.Valid ∧
    SA.exFormula.apply (fun n => (if n = "a" then UArg.plain SA.exPolyX else .unc exCloud).nominal) = .ok a ∧
    SA.exFormula.apply (fun n => (if n = "a" then UArg.plain SA.exPolyX else .unc exCloud).distribution) = .ok b ∧
    Same r.nominal.shape a.shape ∧ Same r.distribution.shape b.shape := by
  obtain ⟨r, a, b, h1, h2, h3, h4, h5, h6, _⟩ := C118_uncertain_partial 0 SA.exFormula [("a", .plain SA.exPolyX)]
    [("b", .unc exCloud)] (fun n => if n = "a" then UArg.plain SA.exPolyX else .unc exCloud) (by decide) (by decide +kernel) (by
      intro n hn
      simp only [SA.exFormula, Formula.vars, List.nil_append, List.cons_append, List.mem_cons, List.not_mem_nil, or_false] at hn
      rcases hn with rfl | rfl
      · exact .inl rfl
      · exact .inr ⟨rfl, rfl⟩) (by
      intro n _
      split
      · exact fit_plain
      · exact fit_exCloud) (by
      rw [← C01_broadcast_shapes_error_iff _ (by decide)]
      rintro ⟨e, h⟩
      have : (broadcastShapes (SA.exFormula.vars.map
        (fun n => (if n = "a" then UArg.plain SA.exPolyX else .unc exCloud).nominal.shape))).isOk = true := by decide +kernel
      rw [h] at this
      cases this) (by
      rw [← C01_broadcast_shapes_error_iff _ (by decide)]
      rintro ⟨e, h⟩
      have : (broadcastShapes (SA.exFormula.vars.map
        (fun n => (if n = "a" then UArg.plain SA.exPolyX else .unc exCloud).distribution.shape))).isOk = true := by decide +kernel
      rw [h] at this
      cases this)
  exact ⟨r, a, b, h1, h2, h3, h4, h5, h6⟩

end UA

namespace Comp

theorem variablesAt_names {l : List String} {env : String → Comp (SA α)} {p : List String} {as : Dict (SA α)} (d : SA α)
    (h : VariablesAt (l.map (fun n => (n, env n))) p as) :
    as = l.map (fun n => (n, ((env n).leafB p).getD d)) ∧ ∀ n ∈ l, (env n).leafB p = some (((env n).leafB p).getD d) := by
  induction l generalizing as with
  | nil => cases h; exact ⟨rfl, fun n hn => by cases hn⟩
  | cons m l ih =>
    cases h with
    | @cons _ a _ l' h1 h2 =>
      obtain ⟨i1, i2⟩ := ih h2
      obtain ⟨a1, a2⟩ := a
      obtain ⟨g1, g2⟩ := h1
      simp only at g1 g2
      subst g1
      refine ⟨?_, ?_⟩
      · rw [i1, List.map_cons, g2]; rfl
      · intro n hn
        rcases List.mem_cons.1 hn with rfl | hn
        · rw [g2]; rfl
        · exact i2 n hn

/-- **C118** (vectors). The variables are vectors which are structured like `P`, or scalars standing for all the components inside.
At every path the result has the value of the expression written with the components `c` of the variables at this path; if these do not
broadcast at some path, then `ValueError` is raised. -/
theorem C118_vector_partial {ρ : Type} (dflt : α) (x : Formula α) (loc glob : Dict (Comp (SA α))) (env : String → Comp (SA α))
    (hk : ∀ n ∈ x.vars, n ∉ callKeywords) (hb : ∀ n ∈ x.vars, Bound loc glob n (env n))
    (P : Comp ρ) (hD : P.Dicts) (hw : ∀ n ∈ x.vars, (env n).WFLeaves) (hA : ∀ n ∈ x.vars, P.Along (env n))
    (hex : ∃ n ∈ x.vars, P.Similar (env n)) :
    (∃ r, evaluateExpression dflt x loc glob = .ok r ∧ P.Similar r ∧ ∀ p, (P.leafAt p).isSome →
      ∃ (b a : SA α) (c : String → SA α), r.leafAt p = some b ∧ (∀ n ∈ x.vars, (env n).leafB p = some (c n)) ∧ x.apply c = .ok a ∧
        b.WF ∧ Same b.shape a.shape ∧
        ∀ e, InRange b.shape e → b.at' e = a.at' e ∧ b.at' e = x.value (fun n => (c n).atB e)) ∨
    ((∃ (p : List String) (c : String → SA α), (P.leafAt p).isSome ∧ (∀ n ∈ x.vars, (env n).leafB p = some (c n)) ∧ Clash (x.vars.map (fun n => (c n).shape))) ∧
      evaluateExpression dflt x loc glob = .error .valueError) := by
  have hv : x.vars ≠ [] := by
    obtain ⟨n, hn, _⟩ := hex
    exact List.ne_nil_of_mem hn
  have heq := evaluateNames_eq (handler := Comp.evaluate (x.eval dflt)) hv hk hb
  have hin : ∀ v ∈ x.names.map (fun n => (n, env n)), ∃ n ∈ x.vars, v.2 = env n := by
    intro v hv
    obtain ⟨n, hn, rfl⟩ := List.mem_map.1 hv
    exact ⟨n, Formula.mem_names.1 hn, rfl⟩
  rcases C99_vector_evaluate (x.eval dflt) P hD (x.names.map (fun n => (n, env n)))
    (fun v hv => by obtain ⟨n, hn, h⟩ := hin v hv; rw [h]; exact hw n hn)
    (fun v hv => by obtain ⟨n, hn, h⟩ := hin v hv; rw [h]; exact hA n hn)
    (by obtain ⟨n, hn, h⟩ := hex; exact ⟨_, List.mem_map.2 ⟨n, Formula.mem_names.2 hn, rfl⟩, h⟩) with
    ⟨r, r1, r2, r3⟩ | ⟨⟨p, as, h1, h2, h3⟩, h4⟩
  · refine .inl ⟨r, by rw [evaluateExpression, heq, r1], r2, fun p hp => ?_⟩
    obtain ⟨b, as, s, b1, b2, b3, b4, b5, b6⟩ := r3 p hp
    obtain ⟨c1, c2⟩ := variablesAt_names (SA.scalar dflt) b2
    have hwc : ∀ n ∈ x.vars, (((env n).leafB p).getD (SA.scalar dflt)).WF := fun n hn =>
      hw n hn _ (leafB_mem_leaves _ _ _ (c2 n (Formula.mem_names.2 hn)))
    rw [c1, List.map_map] at b3
    obtain ⟨a, a1, _, a3, a4⟩ := SA.apply_shape (env := fun n => ((env n).leafB p).getD (SA.scalar dflt)) hwc b3
    refine ⟨b, a, _, b1, fun n hn => c2 n (Formula.mem_names.2 hn), a1, b4, fun ax => by rw [b5, a3 ax], fun e he => ?_⟩
    have : b.at' e = x.value (fun n => (((env n).leafB p).getD (SA.scalar dflt)).atB e) := by
      rw [b6, c1, List.map_map]
      exact SA.eval_names dflt x (fun n => (((env n).leafB p).getD (SA.scalar dflt)).atB e)
    exact ⟨by rw [this, a4 e (b5 ▸ he)], this⟩
  · obtain ⟨c1, c2⟩ := variablesAt_names (SA.scalar dflt) h2
    refine .inr ⟨⟨p, _, h1, fun n hn => c2 n (Formula.mem_names.2 hn), ?_⟩, by rw [evaluateExpression, heq, h4]⟩
    rw [c1, List.map_map] at h3
    obtain ⟨ax, m, n, ⟨s, hs, g1⟩, ⟨t, ht, g2⟩, g⟩ := h3
    obtain ⟨u, hu, rfl⟩ := List.mem_map.1 hs
    obtain ⟨w, hw', rfl⟩ := List.mem_map.1 ht
    exact ⟨ax, m, n, ⟨_, List.mem_map.2 ⟨u, Formula.mem_names.1 hu, rfl⟩, g1⟩,
      ⟨_, List.mem_map.2 ⟨w, Formula.mem_names.1 hw', rfl⟩, g2⟩, g⟩

example : ∃ r, evaluateExpression 0 SA.exFormula [("a", .leaf SA.exPolyX)] [("b", exDeep)] = .ok r ∧ exDeep.Similar r := by
  rcases C118_vector_partial 0 SA.exFormula [("a", .leaf SA.exPolyX)] [("b", exDeep)]
    (fun n => if n = "a" then .leaf SA.exPolyX else exDeep) (by decide +kernel) (by
      intro n hn
      simp only [SA.exFormula, Formula.vars, List.nil_append, List.cons_append, List.mem_cons, List.not_mem_nil, or_false] at hn
      rcases hn with rfl | rfl
      · exact .inl rfl
      · exact .inr ⟨rfl, rfl⟩) exDeep dicts_exDeep (by
      intro n _
      split
      · intro a ha
        simp only [leaves, List.mem_cons, List.not_mem_nil, or_false] at ha
        subst ha
        exact ⟨rfl, by decide⟩
      · exact wf_exDeep) (by
      intro n _
      split
      · exact along_leaf _ _
      · exact along_of_similar _ _ (similar_refl _)) ⟨"b", by decide, similar_refl _⟩ with ⟨r, h, h', _⟩ | ⟨_, h⟩
  · exact ⟨r, h, h'⟩
  · exfalso
    have : (evaluateExpression 0 SA.exFormula [("a", .leaf SA.exPolyX)] [("b", exDeep)]).map
      (fun r => r.leaves.map SA.shape) = .ok [[("p", 3)], [("p", 3), ("v", 4), ("s", 2)]] := by decide +kernel
    rw [h] at this
    cases this

end Comp
end NA
