import Verif.Uncertain.Implicit
import Verif.Props.RandomSamples
import Verif.Uncertain.Lemmas
import Mathlib.Algebra.Order.Field.Basic
import Mathlib.Tactic.Ring
import Mathlib.Tactic.Linarith

/-!
# Values with a uniform or normal uncertainty (C114)
-/

namespace NA
open Dict
open SA (InRange)
variable {α β σ K : Type}

namespace SA

/-- Both ends of the interval have the shape of the nominal value and the width broadcast. -/
theorem ends_of (n w : SA α) (hn : n.WF) (hw : w.WF) (B : Shape) (hB : broadcastShapes [n.shape, w.shape] = .ok B) (f : α → α → β) :
    ∃ r, ufunc2 f n w = .ok r ∧ r.WF ∧ r.shape = B ∧ ∀ e, r.atB e = f (n.atB e) (w.atB e) := by
  obtain ⟨r, hr⟩ := ufunc2_isOk hn hw hB f
  obtain ⟨h1, h2, h3⟩ := ufunc2_ok hn hw hr
  have hs : r.shape = B := by rw [h2] at hB; exact Except.ok.inj hB
  have hf : ∀ a ∈ [n.shape, w.shape], FitsIn a r.shape := fun a ha => fitsIn_of_broadcastShapes (wf_pair hn hw) h2 ha
  refine ⟨r, hr, h1, hs, fun e => ?_⟩
  show r.at' (fun ax => if get? r.shape ax = some 1 then 0 else e ax) = _
  rw [h3, NA.atB_clip hn (hf _ (by simp)) e, NA.atB_clip hw (hf _ (by simp)) e]

theorem bs_twice {B : Shape} (hB : Dict.WF B) : broadcastShapes [B, B] = .ok B := by
  have h2 : bcShape B B = .ok B := by
    unfold bcShape
    rw [if_pos]
    simp only [Dict.eqv, BEq.rfl, Bool.true_and, List.all_eq_true, beq_iff_eq]
    exact fun p hp => get?_of_mem hB hp
  show List.foldlM bcShape B [B] = _
  rw [List.foldlM_cons, h2]
  rfl

/-- The place of each index among the draws. -/
theorem exists_place {S : Shape} (hSw : Dict.WF S) (e : String → Nat) (he : InRange S e) :
    ∃ before d after, ndindex S [] = before ++ d :: after ∧ ∀ ax ∈ keys S, namedIndex d ax = e ax := by
  obtain ⟨d, hd, hde⟩ : ∃ d ∈ ndindex S [], ∀ ax ∈ keys S, namedIndex d ax = e ax := by
    obtain ⟨E, e1, e2, e3⟩ := ndindex_envs hSw
    obtain ⟨e', he', heq⟩ := e3 e he
    have : itemAt (keys S) e' ∈ (ndindex S []).map ints := by rw [e1]; exact List.mem_map_of_mem he'
    obtain ⟨d, hd, hdi⟩ := List.mem_map.1 this
    refine ⟨d, hd, fun ax hax => ?_⟩
    have := congrArg (fun i => get? i ax) hdi
    simp only [get?_itemAt, if_pos hax, ints] at this
    rw [get?_map_pair d (fun _ n => IndexVal.int (n : Int))] at this
    unfold namedIndex
    cases hg : get? d ax with
    | none => rw [hg] at this; cases this
    | some n =>
      rw [hg] at this
      simp only [Option.map_some, Option.some.injEq, IndexVal.int.injEq] at this
      rw [Option.getD_some, ← heq ax hax]
      omega
  obtain ⟨before, after, hsplit⟩ := List.append_of_mem hd
  exact ⟨before, d, after, hsplit, hde⟩

end SA

namespace UA
open SA

theorem uniform_eq [Add α] [Sub α] (valid : List α → Bool) (step : List α → σ → α × σ) (garbage : α) (rng : Nat → σ) (secret : Nat)
    (n w : SA α) (num : Nat) (seed : Option Nat) (hn : n.WF) (hw : w.WF) (B : Shape) (hB : broadcastShapes [n.shape, w.shape] = .ok B) :
    ∃ lo hi, lo.WF ∧ hi.WF ∧ lo.shape = B ∧ hi.shape = B ∧ (∀ e, lo.atB e = n.atB e - w.atB e) ∧ (∀ e, hi.atB e = n.atB e + w.atB e) ∧
      uniform valid step garbage rng secret n w num seed =
        (SA.random valid step garbage (rng (seedOf secret seed)) [lo, hi] [(axisD, num)] >>= fun d => UA.mk? n d) := by
  obtain ⟨lo, l1, l2, l3, l4⟩ := ends_of n w hn hw B hB (fun x y => x - y)
  obtain ⟨hi, h1, h2, h3, h4⟩ := ends_of n w hn hw B hB (fun x y => x + y)
  refine ⟨lo, hi, l2, h2, l3, h3, l4, h4, ?_⟩
  unfold uniform
  rw [l1, h1]
  rfl

/-- **C114** (uniform). The nominal value is the given one; there are `num_distribution` samples of each element of the nominal value
and the width broadcast together; and no sample differs from the nominal value at its index by more than the width at its index.
What is assumed of numpy: a number drawn between two numbers is not outside them. -/
theorem C114_uniform [Field K] [LinearOrder K] [IsStrictOrderedRing K] (valid : List K → Bool) (step : List K → σ → K × σ) (garbage : K)
    (rng : Nat → σ) (secret : Nat) (n w : SA K) (num : Nat) (seed : Option Nat) (hn : n.WF) (hw : w.WF) (hD : axisD ∉ n.axes)
    (B S : Shape) (hB : broadcastShapes [n.shape, w.shape] = .ok B) (hS : broadcastShapes [B, [(axisD, num)]] = .ok S)
    (hv : ∀ e, InRange B e → valid [n.atB e - w.atB e, n.atB e + w.atB e] = true)
    (hstep : ∀ lo hi s, valid [lo, hi] = true → lo ≤ hi → lo ≤ (step [lo, hi] s).1 ∧ (step [lo, hi] s).1 ≤ hi) :
    ∃ r, uniform valid step garbage rng secret n w num seed = .ok r ∧ r.Valid ∧ r.nominal = n ∧ r.distribution.shape = S ∧
      ∀ e, InRange S e → 0 ≤ w.atB e → |r.distribution.at' e - n.atB e| ≤ w.atB e := by
  obtain ⟨lo, hi, u1, u2, u3, u4, u5, u6, u7⟩ := uniform_eq valid step garbage rng secret n w num seed hn hw B hB
  have hBw : Dict.WF B := by rw [← u3]; exact wf_shape u1
  obtain ⟨d, d1, d2, d3, d4⟩ := C92_samples valid step garbage (rng (seedOf secret seed)) [lo, hi] (by simp [u1, u2]) (by simp)
    [(axisD, num)] (by simp [Dict.WF, keys]) B S (by simp only [List.map_cons, List.map_nil, u3, u4]; exact bs_twice hBw) hS
    (by
      intro e he
      simp only [List.map_cons, List.map_nil, u5, u6]
      exact hv e he)
    (fun ps x => ∀ a b, ps = [a, b] → a ≤ b → a ≤ x ∧ x ≤ b)
    (by
      rintro ps s hps a b rfl hab
      exact hstep a b s hps hab)
  refine ⟨⟨n, d⟩, ?_, ⟨hn, d2, hD⟩, rfl, d3, fun e he h0 => ?_⟩
  · rw [u7, d1]
    exact mk?_of_valid hn hD
  · have := d4 e he (n.atB e - w.atB e) (n.atB e + w.atB e) (by simp [u5, u6]) (by linarith)
    rw [abs_le]
    constructor <;> linarith

/-- **C114** (normal). The nominal value is the given one; there are `num_distribution` samples of each element of the nominal value
and the width broadcast together; and each of them is drawn with the nominal value at its index as the center and the width at its index:
whatever numpy guarantees of a number drawn with a center and a width holds of the sample. -/
theorem C114_normal (valid : List α → Bool) (step : List α → σ → α × σ) (garbage : α)
    (rng : Nat → σ) (secret : Nat) (n w : SA α) (num : Nat) (seed : Option Nat) (hn : n.WF) (hw : w.WF) (hD : axisD ∉ n.axes)
    (B S : Shape) (hB : broadcastShapes [n.shape, w.shape] = .ok B) (hS : broadcastShapes [B, [(axisD, num)]] = .ok S)
    (hv : ∀ e, InRange B e → valid [n.atB e, w.atB e] = true) (P : α → α → α → Prop)
    (hstep : ∀ c v s, valid [c, v] = true → P c v (step [c, v] s).1) :
    ∃ r, normal valid step garbage rng secret n w num seed = .ok r ∧ r.Valid ∧ r.nominal = n ∧ r.distribution.shape = S ∧
      ∀ e, InRange S e → P (n.atB e) (w.atB e) (r.distribution.at' e) := by
  obtain ⟨d, d1, d2, d3, d4⟩ := C92_samples valid step garbage (rng (seedOf secret seed)) [n, w] (by simp [hn, hw]) (by simp)
    [(axisD, num)] (by simp [Dict.WF, keys]) B S hB hS hv (fun ps x => ∀ a b, ps = [a, b] → P a b x)
    (by
      rintro ps s hps a b rfl
      exact hstep a b s hps)
  refine ⟨⟨n, d⟩, ?_, ⟨hn, d2, hD⟩, rfl, d3, fun e he => d4 e he _ _ rfl⟩
  unfold normal normalSample
  rw [d1]
  exact mk?_of_valid hn hD

/-- The standard number which is drawn for an index. -/
noncomputable def standardAt (f : σ → K) (next : σ → σ) (s : σ) (S : Shape) (e : String → Nat) [Inhabited K] : K :=
  open Classical in
  if h : ∃ before : List (Dict Nat), ∃ d after, ndindex S [] = before ++ d :: after ∧ ∀ ax ∈ keys S, namedIndex d ax = e ax then
    f (next^[h.choose.length] s)
  else default

theorem foldl_next {ρ : Type} (next : σ → σ) (l : List ρ) (s : σ) : l.foldl (fun s _ => next s) s = next^[l.length] s := by
  induction l generalizing s with
  | nil => rfl
  | cons x l ih => rw [List.foldl_cons, ih, List.length_cons, Function.iterate_succ_apply]

/-- Samples of a generator which transforms a standard number. -/
theorem standard_samples [Inhabited K] (valid : List K → Bool) (step : List K → σ → K × σ) (garbage : K) (s : σ) (a b : SA K) (ha : a.WF) (hb : b.WF)
    (shapeRandom : Shape) (hr : Dict.WF shapeRandom) (B S : Shape) (hB : broadcastShapes [a.shape, b.shape] = .ok B)
    (hS : broadcastShapes [B, shapeRandom] = .ok S) (hv : ∀ e, InRange B e → valid [a.atB e, b.atB e] = true)
    (f : σ → K) (next : σ → σ) (g : K → K → K → K) (hstep : ∀ x y s, step [x, y] s = (g x y (f s), next s)) :
    ∃ r, SA.random valid step garbage s [a, b] shapeRandom = .ok r ∧ r.WF ∧ r.shape = S ∧
      ∀ e, InRange S e → r.at' e = g (a.atB e) (b.atB e) (standardAt f next s S e) := by
  have hwl : ∀ c ∈ [a, b], c.WF := by simp [ha, hb]
  obtain ⟨r, r1, r2, r3, r4⟩ := C92_stream valid step garbage s [a, b] hwl (by simp) shapeRandom hr B S hB hS hv
  have hBw := (broadcastShapes_joinOf (wf_shapes hwl) hB).1
  have hss : ∀ u ∈ [B, shapeRandom], Dict.WF u := by simp [hBw, hr]
  have hSw := (broadcastShapes_joinOf hss hS).1
  refine ⟨r, r1, r2, r3, fun e he => ?_⟩
  have hex : ∃ before : List (Dict Nat), ∃ d after, ndindex S [] = before ++ d :: after ∧ ∀ ax ∈ keys S, namedIndex d ax = e ax :=
    exists_place hSw e he
  obtain ⟨d, after, hsplit, hde⟩ := hex.choose_spec
  have hat : ∀ c ∈ [a, b], c.atB (namedIndex d) = c.atB e := by
    intro c hc
    apply atB_congr
    intro ax hax
    refine hde ax ?_
    have h1 := fitsIn_of_broadcastShapes (wf_shapes hwl) hB (List.mem_map_of_mem hc)
    have h2 := fitsIn_of_broadcastShapes hss hS (s := B) (by simp)
    rw [← keys_shape (hwl c hc)] at hax
    obtain ⟨n, hn⟩ := exists_get?_of_mem hax
    obtain ⟨m, hm, _⟩ := h1 ax n hn
    obtain ⟨k, hk, _⟩ := h2 ax m hm
    exact mem_keys_of_get? hk
  have hre : r.at' (namedIndex d) = r.at' e := at'_congr (fun ax hax => hde ax (by rw [← r3, keys_shape r2]; exact hax))
  rw [← hre, r4 hex.choose d after hsplit]
  simp only [List.map_cons, List.map_nil, hstep]
  rw [foldl_next, hat a (by simp), hat b (by simp)]
  unfold standardAt
  rw [dif_pos hex]

/-- **C114** (correlation, uniform). For each seed, each shape and each index there is a number `t` with which every value of this seed and
shape is sampled: the sample is the nominal value plus `t` times the width.  So two values with the same seed and shape are fully
correlated, and shifting or scaling a value shifts or scales its samples.
What is assumed of numpy: a number between `lo` and `hi` is drawn as `lo + (hi - lo) * f s`, where `f s` does not depend on them, and
each number advances the state in the same way. -/
theorem C114_correlated_partial [Field K] (valid : List K → Bool) (step : List K → σ → K × σ) (garbage : K) (rng : Nat → σ) (secret : Nat)
    (num : Nat) (seed : Option Nat) (f : σ → K) (next : σ → σ) (hstep : ∀ lo hi s, step [lo, hi] s = (lo + (hi - lo) * f s, next s)) (S : Shape) :
    ∃ t : (String → Nat) → K, ∀ (n w : SA K) (B : Shape), n.WF → w.WF → axisD ∉ n.axes → broadcastShapes [n.shape, w.shape] = .ok B →
      broadcastShapes [B, [(axisD, num)]] = .ok S → (∀ e, InRange B e → valid [n.atB e - w.atB e, n.atB e + w.atB e] = true) →
      ∃ r, uniform valid step garbage rng secret n w num seed = .ok r ∧ r.nominal = n ∧ r.distribution.shape = S ∧
        ∀ e, InRange S e → r.distribution.at' e = n.atB e + t e * w.atB e := by
  let : Inhabited K := ⟨0⟩
  refine ⟨fun e => 2 * standardAt f next (rng (seedOf secret seed)) S e - 1, fun n w B hn hw hD hB hS hv => ?_⟩
  obtain ⟨lo, hi, u1, u2, u3, u4, u5, u6, u7⟩ := uniform_eq valid step garbage rng secret n w num seed hn hw B hB
  have hBw : Dict.WF B := by rw [← u3]; exact wf_shape u1
  obtain ⟨d, d1, d2, d3, d4⟩ := standard_samples valid step garbage (rng (seedOf secret seed)) lo hi u1 u2 [(axisD, num)]
    (by simp [Dict.WF, keys]) B S (by rw [u3, u4]; exact bs_twice hBw) hS (by simpa only [u5, u6] using hv) f next
    (fun x y z => x + (y - x) * z) hstep
  refine ⟨⟨n, d⟩, ?_, rfl, d3, fun e he => ?_⟩
  · rw [u7, d1]
    exact mk?_of_valid hn hD
  · show d.at' e = _
    rw [d4 e he, u5, u6]
    ring

/-- **C114** (correlation, normal). The same for normal uncertainties, where a number is drawn as `center + width * f s`. -/
theorem C114_correlated_normal_partial [Field K] (valid : List K → Bool) (step : List K → σ → K × σ) (garbage : K) (rng : Nat → σ) (secret : Nat)
    (num : Nat) (seed : Option Nat) (f : σ → K) (next : σ → σ) (hstep : ∀ c v s, step [c, v] s = (c + v * f s, next s)) (S : Shape) :
    ∃ t : (String → Nat) → K, ∀ (n w : SA K) (B : Shape), n.WF → w.WF → axisD ∉ n.axes → broadcastShapes [n.shape, w.shape] = .ok B →
      broadcastShapes [B, [(axisD, num)]] = .ok S → (∀ e, InRange B e → valid [n.atB e, w.atB e] = true) →
      ∃ r, normal valid step garbage rng secret n w num seed = .ok r ∧ r.nominal = n ∧ r.distribution.shape = S ∧
        ∀ e, InRange S e → r.distribution.at' e = n.atB e + t e * w.atB e := by
  let : Inhabited K := ⟨0⟩
  refine ⟨fun e => standardAt f next (rng (seedOf secret seed)) S e, fun n w B hn hw hD hB hS hv => ?_⟩
  obtain ⟨d, d1, d2, d3, d4⟩ := standard_samples valid step garbage (rng (seedOf secret seed)) n w hn hw [(axisD, num)]
    (by simp [Dict.WF, keys]) B S hB hS hv f next (fun x y z => x + y * z) hstep
  refine ⟨⟨n, d⟩, ?_, rfl, d3, fun e he => ?_⟩
  · unfold normal normalSample
    rw [d1]
    exact mk?_of_valid hn hD
  · show d.at' e = _
    rw [d4 e he]
    ring

end UA
end NA

namespace NA
open Dict
open SA (InRange)
variable {α β σ K : Type}
namespace UA
open SA

theorem bs_pair_error {A B : Shape} (hA : Dict.WF A) (hB : Dict.WF B) (e : Err) (h : broadcastShapes [A, B] = .error e) : e = .valueError :=
  C01_broadcast_shapes_error_kind _ (by simp [hA, hB]) e h

/-- What can be drawn at all, or `ValueError`. -/
theorem random_or_error (valid : List α → Bool) (step : List α → σ → β × σ) (garbage : β) (s : σ) (args : List (SA α))
    (hw : ∀ a ∈ args, a.WF) (h0 : args ≠ []) (shapeRandom : Shape) (hr : Dict.WF shapeRandom) :
    (∃ r, SA.random valid step garbage s args shapeRandom = .ok r) ∨ SA.random valid step garbage s args shapeRandom = .error .valueError := by
  obtain ⟨c1, c2⟩ := C92_samples_error valid step garbage s args hw h0 shapeRandom hr
  cases hB : broadcastShapes (args.map SA.shape) with
  | error e => exact .inr (c1 ((C01_broadcast_shapes_error_iff _ (wf_shapes hw)).1 ⟨e, hB⟩))
  | ok B =>
    obtain ⟨c3, c4⟩ := c2 B hB
    have hBw := (broadcastShapes_joinOf (wf_shapes hw) hB).1
    have hss : ∀ u ∈ [B, shapeRandom], Dict.WF u := by simp [hBw, hr]
    cases hS : broadcastShapes [B, shapeRandom] with
    | error e => exact .inr (c3 ((C01_broadcast_shapes_error_iff _ hss).1 ⟨e, hS⟩))
    | ok S =>
      by_cases hv : ∃ e, InRange B e ∧ valid (args.map (fun a => a.atB e)) = false
      · exact .inr (c4 S hS hv)
      · obtain ⟨r, r1, _⟩ := C92_stream valid step garbage s args hw h0 shapeRandom hr B S hB hS (by
          intro e he
          by_contra h
          exact hv ⟨e, he, by simpa using h⟩)
        exact .inl ⟨r, r1⟩

/-- **C114** (errors). A nominal value with the axis of the samples, a nominal value and a width which do not broadcast, and parameters which
numpy rejects raise `ValueError`. -/
theorem C114_error [Add α] [Sub α] (valid : List α → Bool) (step : List α → σ → α × σ) (garbage : α) (rng : Nat → σ) (secret : Nat)
    (n w : SA α) (num : Nat) (seed : Option Nat) (hn : n.WF) (hw : w.WF) :
    (axisD ∈ n.axes ∨ Clash [n.shape, w.shape] → uniform valid step garbage rng secret n w num seed = .error .valueError ∧
      normal valid step garbage rng secret n w num seed = .error .valueError) ∧
    ∀ B S, broadcastShapes [n.shape, w.shape] = .ok B → broadcastShapes [B, [(axisD, num)]] = .ok S →
      ((∃ e, InRange B e ∧ valid [n.atB e - w.atB e, n.atB e + w.atB e] = false) →
        uniform valid step garbage rng secret n w num seed = .error .valueError) ∧
      ((∃ e, InRange B e ∧ valid [n.atB e, w.atB e] = false) → normal valid step garbage rng secret n w num seed = .error .valueError) := by
  have hr : Dict.WF [(axisD, num)] := by simp [Dict.WF, keys]
  have hwl : ∀ c ∈ [n, w], c.WF := by simp [hn, hw]
  refine ⟨fun h => ⟨?_, ?_⟩, fun B S hB hS => ⟨?_, ?_⟩⟩
  · cases hB : broadcastShapes [n.shape, w.shape] with
    | error e =>
      have he := bs_pair_error (wf_shape hn) (wf_shape hw) e hB
      subst he
      have hu : SA.ufunc2 (fun x y => x - y) n w = .error .valueError := by
        unfold SA.ufunc2
        rw [hB]
        rfl
      unfold uniform
      rw [hu]
      rfl
    | ok B =>
      have hD : axisD ∈ n.axes := by
        rcases h with h | h
        · exact h
        · obtain ⟨e, he⟩ := (C01_broadcast_shapes_error_iff _ (wf_pair hn hw)).2 h
          rw [hB] at he
          cases he
      obtain ⟨lo, hi, u1, u2, u3, u4, u5, u6, u7⟩ := uniform_eq valid step garbage rng secret n w num seed hn hw B hB
      rw [u7]
      rcases random_or_error valid step garbage (rng (seedOf secret seed)) [lo, hi] (by simp [u1, u2]) (by simp) [(axisD, num)] hr with h | h
      · obtain ⟨r, hr⟩ := h
        rw [hr]
        show UA.mk? n r = _
        unfold UA.mk?
        rw [if_pos (by rw [keys_shape hn]; exact hD)]
      · rw [h]; rfl
  · unfold normal normalSample
    rcases random_or_error valid step garbage (rng (seedOf secret seed)) [n, w] hwl (by simp) [(axisD, num)] hr with h' | h'
    · obtain ⟨r, hr'⟩ := h'
      rcases h with h | h
      · rw [hr']
        show UA.mk? n r = _
        unfold UA.mk?
        rw [if_pos (by rw [keys_shape hn]; exact h)]
      · rw [(C92_samples_error valid step garbage (rng (seedOf secret seed)) [n, w] hwl (by simp) [(axisD, num)] hr).1 h]
        rfl
    · rw [h']; rfl
  · rintro ⟨e, he, hv⟩
    obtain ⟨lo, hi, u1, u2, u3, u4, u5, u6, u7⟩ := uniform_eq valid step garbage rng secret n w num seed hn hw B hB
    have hBw : Dict.WF B := by rw [← u3]; exact wf_shape u1
    rw [u7, ((C92_samples_error valid step garbage (rng (seedOf secret seed)) [lo, hi] (by simp [u1, u2]) (by simp) [(axisD, num)] hr).2 B
      (by simp only [List.map_cons, List.map_nil, u3, u4]; exact bs_twice hBw)).2 S hS
      ⟨e, he, by simp only [List.map_cons, List.map_nil, u5, u6]; exact hv⟩]
    rfl
  · rintro ⟨e, he, hv⟩
    unfold normal normalSample
    rw [((C92_samples_error valid step garbage (rng (seedOf secret seed)) [n, w] hwl (by simp) [(axisD, num)] hr).2 B hB).2 S hS ⟨e, he, hv⟩]
    rfl

/-! ### Examples -/

/-- A generator for examples, which draws the standard numbers `0`, `1`, `2`, … -/
def exAffine (p : List Int) (s : Nat) : Int × Nat := (p.getD 0 0 + (p.getD 1 0 - p.getD 0 0) * s, s + 1)

/-- A nominal value with two axes. -/
def exNominal : SA Int := ⟨["x", "y"], ⟨[2, 2], fun i => 10 * i.getD 0 0 + i.getD 1 0⟩⟩

/-- The same nominal value with its axes in the other order. -/
def exNominalT : SA Int := ⟨["y", "x"], ⟨[2, 2], fun i => 10 * i.getD 1 0 + i.getD 0 0⟩⟩

/-- **C114 is false of the code** for values which differ only in the order of their axes: the samples with one seed are not the
samples of the same index, although nominal values, widths and seeds are equal at each index. -/
theorem C114_order_refuted : ∃ r r', uniform (fun _ => true) exAffine 0 id 0 exNominal (SA.scalar 1) 1 (some 0) = .ok r ∧
    uniform (fun _ => true) exAffine 0 id 0 exNominalT (SA.scalar 1) 1 (some 0) = .ok r' ∧
    (∀ e, r.nominal.at' e = r'.nominal.at' e) ∧ ∃ e, InRange r.distribution.shape e ∧ InRange r'.distribution.shape e ∧
      r.distribution.at' e ≠ r'.distribution.at' e := by
  refine ⟨_, _, rfl, rfl, fun e => rfl, fun ax => if ax = "y" then 1 else 0, ?_, ?_, by decide +kernel⟩
  · intro ax n hn
    have hm := mem_keys_of_get? hn
    have : ax = "x" ∨ ax = "y" ∨ ax = "_distribution" := by
      have h : ax ∈ ["x", "y", "_distribution"] := hm
      simpa using h
    rcases this with rfl | rfl | rfl
    · have : some 2 = some n := hn
      injection this with this
      subst this
      decide
    · have : some 2 = some n := hn
      injection this with this
      subst this
      decide
    · have : some 1 = some n := hn
      injection this with this
      subst this
      decide
  · intro ax n hn
    have hm := mem_keys_of_get? hn
    have : ax = "y" ∨ ax = "x" ∨ ax = "_distribution" := by
      have h : ax ∈ ["y", "x", "_distribution"] := hm
      simpa using h
    rcases this with rfl | rfl | rfl
    · have : some 2 = some n := hn
      injection this with this
      subst this
      decide
    · have : some 2 = some n := hn
      injection this with this
      subst this
      decide
    · have : some 1 = some n := hn
      injection this with this
      subst this
      decide

/-- A generator for examples which draws one of the two ends in turn. -/
def exEnds (p : List ℚ) (s : Bool) : ℚ × Bool := (if s then p.getD 0 0 else p.getD 1 0, !s)

/-- A value of three elements, each of which is known up to one half. -/
def exKnown : SA ℚ := ⟨["x"], ⟨[3], fun i => (i.getD 0 0 : ℚ) + 1⟩⟩

example : ∃ r, uniform (fun _ => true) exEnds 0 (fun _ => true) 7 exKnown (SA.scalar (1 / 2)) 2 none = .ok r ∧ r.Valid ∧
      r.nominal = exKnown ∧ r.distribution.shape = [("x", 3), ("_distribution", 2)] ∧
      ∀ e, InRange [("x", 3), ("_distribution", 2)] e → 0 ≤ (SA.scalar (1 / 2 : ℚ)).atB e →
        |r.distribution.at' e - exKnown.atB e| ≤ (SA.scalar (1 / 2 : ℚ)).atB e :=
  C114_uniform (fun _ => true) exEnds 0 (fun _ => true) 7 exKnown (SA.scalar (1 / 2)) 2 none ⟨rfl, by decide⟩ ⟨rfl, by decide⟩ (by decide)
    [("x", 3)] [("x", 3), ("_distribution", 2)] rfl rfl (fun _ _ => rfl)
    (by
      intro lo hi s _ h
      unfold exEnds
      cases s
      · exact ⟨h, le_refl _⟩
      · exact ⟨le_refl _, h⟩)

/-- Three elements have two samples each; the nominal value is as given. -/
example : (uniform (fun _ => true) exAffine 0 id 7 ⟨["x"], ⟨[3], fun i => 10 * i.getD 0 0⟩⟩ (SA.scalar 1) 2 (some 0)).map
    (fun r => (r.nominal.nd.toList, r.distribution.axes, r.distribution.nd.toList)) =
      .ok ([0, 10, 20], ["x", "_distribution"], [-1, 1, 13, 15, 27, 29]) := by decide +kernel

example : ∃ r, normal (fun p : List Int => 0 ≤ p.getD 1 0) (fun (p : List Int) (s : Nat) => (p.getD 0 0 + p.getD 1 0 * s, s + 1)) 0 id 7 exNominal (SA.scalar 3) 2 (some 1) =
      .ok r ∧ r.Valid ∧ r.nominal = exNominal ∧ r.distribution.shape = [("x", 2), ("y", 2), ("_distribution", 2)] ∧
      ∀ e, InRange [("x", 2), ("y", 2), ("_distribution", 2)] e → ∃ k : Int, r.distribution.at' e = exNominal.atB e + (SA.scalar 3).atB e * k :=
  C114_normal (fun p : List Int => 0 ≤ p.getD 1 0) (fun (p : List Int) (s : Nat) => (p.getD 0 0 + p.getD 1 0 * s, s + 1)) 0 id 7 exNominal (SA.scalar 3) 2 (some 1)
    ⟨rfl, by decide⟩ ⟨rfl, by decide⟩ (by decide) [("x", 2), ("y", 2)] [("x", 2), ("y", 2), ("_distribution", 2)] rfl rfl
    (fun _ _ => rfl) (fun c v x => ∃ k : Int, x = c + v * k) (fun c v s _ => ⟨s, rfl⟩)

/-- The hypotheses of `C114_correlated_partial` for two values with one shape. -/
example : ∃ t : (String → Nat) → ℚ, ∀ (n w : SA ℚ) (B : Shape), n.WF → w.WF → axisD ∉ n.axes → broadcastShapes [n.shape, w.shape] = .ok B →
      broadcastShapes [B, [(axisD, 2)]] = .ok [("x", 3), ("_distribution", 2)] →
      (∀ e, InRange B e → (fun _ => true) [n.atB e - w.atB e, n.atB e + w.atB e] = true) →
      ∃ r, uniform (fun _ => true) (fun p s => (p.getD 0 0 + (p.getD 1 0 - p.getD 0 0) * s, s / 2)) 0 (fun _ => (1 : ℚ)) 7 n w 2 none = .ok r ∧
        r.nominal = n ∧ r.distribution.shape = [("x", 3), ("_distribution", 2)] ∧
        ∀ e, InRange [("x", 3), ("_distribution", 2)] e → r.distribution.at' e = n.atB e + t e * w.atB e :=
  C114_correlated_partial (fun _ => true) (fun p s => (p.getD 0 0 + (p.getD 1 0 - p.getD 0 0) * s, s / 2)) 0 (fun _ => (1 : ℚ)) 7 2 none id
    (fun s => s / 2) (fun _ _ _ => rfl) [("x", 3), ("_distribution", 2)]

example : exKnown.WF ∧ broadcastShapes [exKnown.shape, (SA.scalar (1 / 2 : ℚ)).shape] = .ok [("x", 3)] ∧
    broadcastShapes [[("x", 3)], [(axisD, 2)]] = .ok [("x", 3), ("_distribution", 2)] := ⟨⟨rfl, by decide⟩, rfl, rfl⟩

example : uniform (fun _ => true) exAffine 0 id 7 ⟨["_distribution"], ⟨[2], fun _ => 0⟩⟩ (SA.scalar 1) 2 (some 0) = .error .valueError :=
  ((C114_error (fun _ => true) exAffine 0 id 7 ⟨["_distribution"], ⟨[2], fun _ => 0⟩⟩ (SA.scalar 1) 2 (some 0) ⟨rfl, by decide⟩
    ⟨rfl, by decide⟩).1 (.inl (by decide))).1

/-- A negative width of a normal uncertainty is rejected by numpy. -/
example : normal (fun p : List Int => 0 ≤ p.getD 1 0) exAffine 0 id 7 exNominal (SA.scalar (-3)) 2 (some 1) = .error .valueError :=
  ((C114_error (fun p => 0 ≤ p.getD 1 0) exAffine 0 id 7 exNominal (SA.scalar (-3)) 2 (some 1) ⟨rfl, by decide⟩ ⟨rfl, by decide⟩).2
    [("x", 2), ("y", 2)] [("x", 2), ("y", 2), ("_distribution", 2)] rfl rfl).2 ⟨fun _ => 0, (by
      intro ax n hn
      have h : ax ∈ ["x", "y"] := mem_keys_of_get? hn
      have h : ax = "x" ∨ ax = "y" := by simpa using h
      rcases h with rfl | rfl
      · have : some 2 = some n := hn
        injection this with this
        subst this
        decide
      · have : some 2 = some n := hn
        injection this with this
        subst this
        decide), rfl⟩

end UA
end NA
