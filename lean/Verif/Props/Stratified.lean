import Verif.Props.Spaces

/-! # C34: stratified random spaces -/

namespace NA
open Dict
open SA (FitsIn InRange)

variable {K : Type} [Field K] [LinearOrder K] [IsStrictOrderedRing K]

/-- What `na.random.uniform` returns: numbers between `low` and `high`; `low` above `high` is an error. -/
theorem uniform_ok {S : Shape} (hSw : WF S) {low high : SA K} (hl : Fits S low) (hh : Fits S high) (draw : List Nat → K)
    (hle : ∀ e, low.atB e ≤ high.atB e) :
    ∃ r, SA.uniform draw low high S = .ok r ∧ Full S r ∧
      ∀ e, ∃ i, r.at' e = low.atB e + (high.atB e - low.atB e) * draw i := by
  obtain ⟨p, p1, p2, p3⟩ := ufunc2_fits' (fun l h => (l, h - l)) hl hh
  obtain ⟨T, hT, hTf⟩ := broadcast_of_fits (SA.wf_shape p2.1) hSw p2.2 (fun ax m hm => ⟨m, hm, .inl rfl⟩)
  have hss : ∀ u ∈ [p.shape, S], WF u := by
    intro u hu
    simp only [List.mem_cons, List.not_mem_nil, or_false] at hu
    rcases hu with rfl | rfl
    · exact SA.wf_shape p2.1
    · exact hSw
  have hTw := (broadcastShapes_joinOf hss hT).1
  have hTS : Same T S := by
    have h5 := C02_order_and_repetition [p.shape, S] [S, p.shape] hss (by intro s; simp [or_comm])
    rw [hT] at h5
    cases h6 : broadcastShapes [S, p.shape] with
    | error e => rw [h6] at h5; exact h5.elim
    | ok T' =>
      rw [h6] at h5
      have := same_of_fits (fun _ => rfl) p2.2 hSw (SA.wf_shape p2.1) h6
      exact fun ax => (h5 ax).trans (this ax)
  obtain ⟨v, hv⟩ := SA.aligned_isOk p2.1 (axes := keys T) hTw (by
    intro ax hax
    rw [← SA.keys_shape p2.1] at hax
    obtain ⟨m, hm⟩ := exists_get?_of_mem hax
    obtain ⟨k, hk, _⟩ := SA.fitsIn_of_broadcastShapes hss hT (s := p.shape) (by simp) ax m hm
    exact mem_keys_of_get? hk)
  have hlen : (values T).length = (keys T).length := by simp [keys, values]
  refine ⟨⟨keys T, ⟨values T, fun i => (v.get (ND.clipIdx v.shape i)).1 + (v.get (ND.clipIdx v.shape i)).2 * draw i⟩⟩, ?_, ?_, ?_⟩
  · simp only [SA.uniform, bind, Except.bind, p1, hT, hv]
    rw [if_neg]
    · unfold SA.mk?
      rw [if_neg, if_neg (not_not.2 (show (keys T).Nodup from hTw))]
      simp [ND.ndim, hlen]
    · intro h
      rw [List.any_eq_true] at h
      obtain ⟨x, hx, hneg⟩ := h
      unfold ND.toList at hx
      obtain ⟨i, hi, rfl⟩ := List.mem_map.1 hx
      rw [ND.mem_ndIndices_iff] at hi
      obtain ⟨hsub, hvs, hvg⟩ := SA.aligned_ok p2.1 hTw hv
      rw [hvs] at hi
      obtain ⟨e, rfl, he⟩ := SA.exists_env hTw hi
      have hcl : v.get ((keys T).map e) = v.get (ND.clipIdx v.shape ((keys T).map e)) := by
        congr 1
        rw [hvs]
        unfold ND.clipIdx
        rw [List.zipWith_map]
        simp only [List.zipWith_self]
        apply List.map_congr_left
        intro ax hax
        have := he ax hax
        split <;> omega
      rw [hcl, SA.aligned_clip p2.1 hTw hv, p3] at hneg
      have := hle e
      simp only [decide_eq_true_eq] at hneg
      linarith
  · refine ⟨⟨by simp [ND.ndim, hlen], hTw⟩, fun ax => ?_⟩
    rw [← hTS ax]
    congr 1
    unfold SA.shape keys values
    simp only
    rw [List.zip_map']
    simp
  · intro e
    refine ⟨(keys T).map e, ?_⟩
    unfold SA.at'
    simp only
    rw [SA.aligned_clip p2.1 hTw hv, p3]

/-- **C34** For every outcome of the random generator (numbers in `[0, 1)`), a stratified random space has the shape of the regular
space with the same parameters, and each of its points lies within half a step of the regular point with the same index: not
below it by more than half a step and above it by less than half a step (equal to it if the step is zero). -/
theorem C34_stratified (draw : List Nat → K) (hd : ∀ i, 0 ≤ draw i ∧ draw i < 1) (start stop : SA K) (ha : start.WF) (hb : stop.WF)
    (S : Shape) (hS : broadcastShapes [start.shape, stop.shape] = .ok S) (axis : String) (hax : axis ∉ keys S) (n : Nat)
    (endpoint centers : Bool) (hc : 0 < cells n endpoint centers) (hle : ∀ e, start.atB e ≤ stop.atB e) :
    ∃ r g w, SA.stratified draw start stop axis n endpoint centers = .ok r ∧
      SA.linspace start stop axis n endpoint centers = .ok g ∧ SA.step start stop n endpoint centers = .ok w ∧
      r.WF ∧ Same r.shape g.shape ∧
      ∀ e, InRange r.shape e → -(w.atB e / 2) ≤ r.at' e - g.at' e ∧ r.at' e - g.at' e ≤ w.atB e / 2 ∧
        (0 < w.atB e → r.at' e - g.at' e < w.atB e / 2) := by
  obtain ⟨g, g1, g2, g3, g4⟩ := C33_linspace start stop ha hb S hS axis hax n endpoint centers (fun _ => hc.ne')
  obtain ⟨w, w1, w2, w3⟩ := step_ok ha hb hS hc.ne'
  have hw0 : ∀ e, 0 ≤ w.atB e := by
    intro e
    rw [w3]
    have h1 : (0 : K) < (cells n endpoint centers : K) := by exact_mod_cast hc
    exact div_nonneg (by have := hle e; linarith) h1.le
  have hwf : Fits g.shape w := by
    refine ⟨w2.1, fun ax m hm => ?_⟩
    rw [w2.2 ax] at hm
    refine ⟨m, ?_, .inl rfl⟩
    rw [g3, if_neg]
    · exact hm
    · rintro rfl
      exact hax (mem_keys_of_get? hm)
  obtain ⟨m, m1, m2, _, m4⟩ := ufunc1_fits' (- ·) hwf
  obtain ⟨lo, l1, l2, l3⟩ := ufunc2_fits' (· / ·) m2 (fits_scalar g.shape (2 : K))
  obtain ⟨hi, h1, h2, h3⟩ := ufunc2_fits' (· / ·) hwf (fits_scalar g.shape (2 : K))
  have hlov : ∀ e, lo.atB e = -(w.atB e / 2) := by
    intro e
    rw [l3, m4]
    show -w.atB e / 2 = _
    ring
  have hhiv : ∀ e, hi.atB e = w.atB e / 2 := by
    intro e
    rw [h3]
    rfl
  obtain ⟨d, d1, d2, d3⟩ := uniform_ok (SA.wf_shape g2) l2 h2 draw (by
    intro e
    rw [hlov, hhiv]
    have := hw0 e
    linarith)
  obtain ⟨r, r1, r2, r3⟩ := ufunc2_full (· + ·) (show Full g.shape g from ⟨g2, fun _ => rfl⟩) d2.fits
  refine ⟨r, g, w, ?_, g1, w1, r2.1, r2.2, fun e he => ?_⟩
  · simp only [SA.stratified, bind, Except.bind, g1, w1, m1, l1, h1, d1]
    exact r1
  · have he' : InRange g.shape e := fun ax k hk => he ax k (by rw [r2.2 ax]; exact hk)
    obtain ⟨i, hi'⟩ := d3 e
    rw [← r2.atB he', r3, SA.atB_eq_at' g2 he', d2.atB he', hi', hlov, hhiv, add_sub_cancel_left]
    obtain ⟨hd0, hd1⟩ := hd i
    have := hw0 e
    refine ⟨by nlinarith, by nlinarith, fun hp => by nlinarith⟩

/-- **C34** (order). The points of a stratified random space are non-decreasing along its axis. -/
theorem C34_sorted (draw : List Nat → K) (hd : ∀ i, 0 ≤ draw i ∧ draw i < 1) (start stop : SA K) (ha : start.WF) (hb : stop.WF)
    (S : Shape) (hS : broadcastShapes [start.shape, stop.shape] = .ok S) (axis : String) (hax : axis ∉ keys S) (n : Nat)
    (endpoint centers : Bool) (hc : 0 < cells n endpoint centers) (hle : ∀ e, start.atB e ≤ stop.atB e) (r : SA K)
    (hr : SA.stratified draw start stop axis n endpoint centers = .ok r) (e : String → Nat) (he : InRange r.shape e) (k : Nat)
    (hk : e axis ≤ k) (hk' : k < n) : r.at' e ≤ r.at' (Function.update e axis k) := by
  obtain ⟨r', g, w, h1, h2, h3, h4, h5, h6⟩ := C34_stratified draw hd start stop ha hb S hS axis hax n endpoint centers hc hle
  rw [hr] at h1
  cases h1
  obtain ⟨g', g1, g2, g3, g4⟩ := C33_linspace start stop ha hb S hS axis hax n endpoint centers (fun _ => hc.ne')
  rw [h2] at g1
  cases g1
  obtain ⟨w', w1, w2, w3⟩ := step_ok ha hb hS hc.ne'
  rw [h3] at w1
  cases w1
  obtain ⟨hfa, hfb⟩ := fits_pair ha hb hS
  have hout : ∀ (a : SA K), Fits S a → ∀ e k, a.atB (Function.update e axis k) = a.atB e := by
    intro a hf e k
    apply SA.atB_congr
    intro ax h
    rw [Function.update_of_ne]
    rintro rfl
    rw [← SA.keys_shape hf.1] at h
    obtain ⟨m, hm⟩ := exists_get?_of_mem h
    obtain ⟨m', hm', _⟩ := hf.2 ax m hm
    exact hax (mem_keys_of_get? hm')
  rcases Nat.eq_or_lt_of_le hk with rfl | hlt
  · rw [Function.update_eq_self]
  have he2 : InRange r.shape (Function.update e axis k) := by
    intro ax m hm
    by_cases h : ax = axis
    · subst h
      rw [h5 ax, g3, if_pos rfl] at hm
      cases hm
      simpa using hk'
    · rw [Function.update_of_ne h]
      exact he ax m hm
  have q1 := h6 e he
  have q2 := h6 _ he2
  have hg1 := g4 e (fun ax m hm => he ax m (by rw [h5 ax]; exact hm))
  have hg2 := g4 _ (fun ax m hm => he2 ax m (by rw [h5 ax]; exact hm))
  simp only [hout _ hfa, hout _ hfb, Function.update_self] at hg2
  have hw : ∀ e, 0 ≤ w.atB e := by
    intro e
    rw [w3]
    have h1 : (0 : K) < (cells n endpoint centers : K) := by exact_mod_cast hc
    exact div_nonneg (by have := hle e; linarith) h1.le
  rw [hout w w2.fits] at q2
  rw [← w3] at hg1 hg2
  simp only at hg1 hg2
  have hkk : (e axis : K) + 1 ≤ k := by exact_mod_cast hlt
  have := hw e
  nlinarith

/-- **C34** (decreasing spaces). If `stop` is below `start` the generator refuses the bounds. -/
theorem C34_limit : (SA.stratified (fun _ => (1 / 2 : Rat)) (SA.scalar 1) (SA.scalar 0) "x" 2 true true).toOption.isNone = true ∧
    (SA.linspace (SA.scalar (1 : Rat)) (SA.scalar 0) "x" 2 true true).toOption.isSome = true := by
  constructor <;> decide +kernel

/-! ### Non-vacuity -/

example : ((SA.stratified (fun i => (i.headD 0 : Rat) / 4) (SA.scalar 0) (SA.scalar 1) "x" 2 true true).toOption.map
    (fun r => (r.axes, r.nd.toList))) = some (["x"], [0, 5 / 8]) := by decide +kernel
example : 0 < cells 2 true true := by decide

end NA
