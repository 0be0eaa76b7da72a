import Verif.Props.Uncertain
import Verif.Props.Elementwise

/-!
# Masked copies (C49)
-/

namespace NA
open Dict
open SA (FitsIn InRange)

namespace SA
variable {α β : Type}

/-- `aligned` followed by broadcasting to the shape of the destination -/
theorem aligned_broadcast {a dst : SA α} {b : SA β} (hb : b.WF) (hd : dst.WF) :
    (FitsIn b.shape dst.shape ∧ ∃ v w, b.aligned dst.shape.keys = .ok v ∧ v.broadcastTo dst.nd.shape = .ok w ∧
      ∀ e, w.get (dst.axes.map e) = b.atB e) ∨
    (¬ FitsIn b.shape dst.shape ∧ (b.aligned dst.shape.keys = .error .valueError ∨
      ∃ v, b.aligned dst.shape.keys = .ok v ∧ v.broadcastTo dst.nd.shape = .error .valueError)) := by
  have hs := wf_shape hd
  have hbt : b.broadcastTo dst.shape = (do
      let v ← b.aligned dst.shape.keys
      let v ← v.broadcastTo dst.shape.values
      mk? v dst.shape.keys) := rfl
  rw [← values_shape hd]
  rcases C10_broadcast_to b hb dst.shape hs with ⟨h1, r, h2, h3, h4, h5⟩ | ⟨h1, h2⟩
  · left
    refine ⟨h1, ?_⟩
    rw [hbt] at h2
    simp only [bind, Except.bind] at h2
    cases hv : b.aligned dst.shape.keys with
    | error e => rw [hv] at h2; cases h2
    | ok v =>
      rw [hv] at h2; simp only at h2
      cases hw : v.broadcastTo dst.shape.values with
      | error e => rw [hw] at h2; cases h2
      | ok w =>
        rw [hw] at h2; simp only at h2
        obtain ⟨rfl, _⟩ := mk?_ok h2
        refine ⟨v, w, rfl, hw, fun e => ?_⟩
        rw [← h5 e, ← keys_shape hd]
        rfl
  · right
    refine ⟨h1, ?_⟩
    rw [hbt] at h2
    simp only [bind, Except.bind] at h2
    cases hv : b.aligned dst.shape.keys with
    | error e => rw [hv] at h2; cases h2; exact .inl rfl
    | ok v =>
      rw [hv] at h2; simp only at h2
      right
      refine ⟨v, rfl, ?_⟩
      cases hw : v.broadcastTo dst.shape.values with
      | error e => rw [hw] at h2; cases h2; rfl
      | ok w =>
        exfalso
        rw [hw] at h2; simp only at h2
        have : w.ndim = dst.shape.keys.length := by
          have hw' := hw
          unfold ND.broadcastTo at hw'
          split at hw'
          · injection hw' with hw'
            subst hw'
            simp [ND.ndim]
          · cases hw'
        rw [mk?_of_wf this hs] at h2
        cases h2

/-- **C49** (scalars). When numpy allows the cast, `np.copyto(dst, src, where=w)` changes exactly the elements
of `dst` at which the mask is true, to the elements of `src` of the same names; `ValueError` if the source or
the mask does not broadcast to `dst`. -/
theorem C49_scalar_partial (dst src : SA α) (w : SA Bool) (hd : dst.WF) (hs : src.WF) (hw : w.WF) :
    (FitsIn src.shape dst.shape ∧ FitsIn w.shape dst.shape ∧ ∃ r, copyto true dst src (some w) = .ok r ∧
      r.WF ∧ r.shape = dst.shape ∧
      ∀ e, InRange dst.shape e → r.at' e = if w.atB e then src.atB e else dst.at' e) ∨
    (¬ (FitsIn src.shape dst.shape ∧ FitsIn w.shape dst.shape) ∧
      copyto true dst src (some w) = .error .valueError) := by
  have hrun : copyto true dst src (some w) = (do
      let v ← src.aligned dst.shape.keys
      let m ← w.aligned dst.shape.keys
      let nd ← dst.nd.copyto v m
      .ok ⟨dst.axes, nd⟩) := by
    unfold copyto
    simp only [if_true]
  rw [hrun]
  rcases aligned_broadcast (a := dst) hs hd with ⟨s1, v, v', s2, s3, s4⟩ | ⟨s1, s2⟩
  · rcases aligned_broadcast (a := dst) hw hd with ⟨w1, m, m', w2, w3, w4⟩ | ⟨w1, w2⟩
    · left
      refine ⟨s1, w1, ⟨dst.axes, ⟨dst.nd.shape, fun i => if m'.get i then v'.get i else dst.nd.get i⟩⟩,
        ?_, ?_, ?_, ?_⟩
      · simp only [s2, w2, bind, Except.bind, ND.copyto, s3, w3]
      · exact ⟨hd.1, hd.2⟩
      · rfl
      · intro e _
        show (if m'.get (dst.axes.map e) = true then v'.get (dst.axes.map e) else dst.nd.get (dst.axes.map e)) = _
        rw [s4, w4]
        rfl
    · right
      refine ⟨fun h => w1 h.2, ?_⟩
      rcases w2 with w2 | ⟨m, w2, w3⟩
      · simp only [s2, w2, bind, Except.bind]
      · simp only [s2, w2, bind, Except.bind, ND.copyto, s3, w3]
  · right
    refine ⟨fun h => s1 h.1, ?_⟩
    rcases s2 with s2 | ⟨v, s2, s3⟩
    · simp only [s2, bind, Except.bind]
    · simp only [s2, bind, Except.bind, ND.copyto, s3]
      cases hm : w.aligned dst.shape.keys with
      | error e =>
        rw [aligned_error_kind hm]
      | ok m => rfl

/-- **C49** (refuted for scalars when numpy does not allow the cast, for example a source of floats for a
destination of integers): the mask is ignored and the whole ndarray is replaced, even by one which does not
fit the axes. -/
theorem C49_scalar_cast_refuted :
    ∃ (dst src : SA Int) (w : SA Bool) (r : SA Int), dst.WF ∧ src.WF ∧ w.WF ∧
      FitsIn src.shape dst.shape ∧ FitsIn w.shape dst.shape ∧ (∀ e, w.atB e = false) ∧
      copyto false dst src (some w) = .ok r ∧ ¬ r.WF := by
  refine ⟨⟨["x"], ND.ofList [3] [1, 2, 3] 0⟩, scalar 7, scalar false, ⟨["x"], (scalar 7).nd⟩, by decide,
    by decide, by decide, ?_, ?_, fun e => rfl, ?_, by decide⟩
  · intro ax m h; exact absurd h (by simp [shape, scalar])
  · intro ax m h; exact absurd h (by simp [shape, scalar])
  · rfl

/-- A source of the same shape, whose cast is not allowed, replaces the elements at which the mask is false. -/
theorem C49_scalar_cast_refuted' :
    ∃ (dst src : SA Int) (w : SA Bool) (r : SA Int), dst.WF ∧ src.WF ∧ w.WF ∧
      src.shape = dst.shape ∧ (∀ e, w.atB e = false) ∧
      copyto false dst src (some w) = .ok r ∧ r.nd.toList = [4, 5, 6] ∧ dst.nd.toList = [1, 2, 3] := by
  exact ⟨⟨["x"], ND.ofList [3] [1, 2, 3] 0⟩, ⟨["x"], ND.ofList [3] [4, 5, 6] 0⟩, scalar false,
    ⟨["x"], ND.ofList [3] [4, 5, 6] 0⟩, by decide, by decide, by decide, by decide, fun e => rfl, rfl,
    by decide, by decide⟩

end SA

namespace UA
variable {α : Type}

/-- The source and the mask broadcast to the component of the destination. -/
def CopyFits (dst src : SA α) (w : SA Bool) : Prop :=
  FitsIn src.shape dst.shape ∧ FitsIn w.shape dst.shape

/-- Specification: `r` is `dst` with the elements at which the mask is true replaced by those of `src`. -/
def MaskedCopy (r dst src : SA α) (w : SA Bool) : Prop :=
  r.WF ∧ r.shape = dst.shape ∧
    ∀ e, InRange dst.shape e → r.at' e = if w.atB e then src.atB e else dst.at' e

/-- **C49** (a mask which is a plain array, and a cast which numpy allows). The nominal value and every sample
change exactly where the mask is true.  What is missing from C49: masks which are uncertain themselves
(refuted below). -/
theorem C49_copyto_partial (asMask : Option (α → Bool)) (dst : UA α) (src : UArg α) (w : SA Bool)
    (hd : dst.Valid) (hs : src.Ok) (hw : w.WF) :
    (CopyFits dst.nominal src.nominal w ∧ CopyFits dst.distribution src.distribution w ∧
      ∃ r, copyto true asMask dst src (.plain w) = .ok r ∧ r.Valid ∧
        MaskedCopy r.nominal dst.nominal src.nominal w ∧
        MaskedCopy r.distribution dst.distribution src.distribution w) ∨
    (¬ (CopyFits dst.nominal src.nominal w ∧ CopyFits dst.distribution src.distribution w) ∧
      copyto true asMask dst src (.plain w) = .error .valueError) := by
  have hrun : copyto true asMask dst src (.plain w) = (do
      let n ← dst.nominal.copyto true src.nominal (some w)
      let d ← dst.distribution.copyto true src.distribution (some w)
      .ok ⟨n, d⟩) := rfl
  rw [hrun]
  rcases SA.C49_scalar_partial dst.nominal src.nominal w hd.1 hs.nominal hw with
    ⟨a1, a2, n, a3, a4, a5, a6⟩ | ⟨a1, a2⟩
  · rcases SA.C49_scalar_partial dst.distribution src.distribution w hd.2.1 hs.distribution hw with
      ⟨b1, b2, d, b3, b4, b5, b6⟩ | ⟨b1, b2⟩
    · left
      refine ⟨⟨a1, a2⟩, ⟨b1, b2⟩, ⟨n, d⟩, by simp only [a3, b3, bind, Except.bind], ⟨a4, b4, ?_⟩,
        ⟨a4, a5, a6⟩, ⟨b4, b5, b6⟩⟩
      show axisD ∉ n.axes
      rw [← SA.keys_shape a4, a5, SA.keys_shape hd.1]
      exact hd.2.2
    · right
      exact ⟨fun h => b1 h.2, by simp only [a3, b2, bind, Except.bind]⟩
  · right
    exact ⟨fun h => a1 h.1, by simp only [a2, bind, Except.bind]⟩

/-- **C49** (refuted for an uncertain mask, numbers). The code reads the components of the source as the mask;
numpy rejects a mask of numbers, and everything is replaced, although the mask is false everywhere. -/
theorem C49_uncertain_mask_refuted :
    ∃ (dst src : UA Int) (w : UA Bool) (r : UA Int), dst.Valid ∧ src.Valid ∧ w.Valid ∧
      (∀ e, w.nominal.atB e = false) ∧ (∀ e, w.distribution.atB e = false) ∧
      copyto true none dst (.unc src) (.unc w) = .ok r ∧
      r.nominal.at' (fun _ => 0) ≠ dst.nominal.at' (fun _ => 0) := by
  refine ⟨exU, ⟨SA.scalar 9, ⟨[axisD], ND.ofList [3] [7, 8, 9] 0⟩⟩, ⟨SA.scalar false, SA.scalar false⟩,
    ⟨⟨[], (SA.scalar 9).nd⟩, ⟨[axisD], ND.ofList [3] [7, 8, 9] 0⟩⟩, ⟨by decide, by decide, by decide⟩,
    ⟨by decide, by decide, by decide⟩, ⟨by decide, by decide, by decide⟩, fun _ => rfl, fun _ => rfl, rfl,
    by decide⟩

/-- **C49** (refuted for an uncertain mask, booleans). The source is used as the mask: a false element of the
source is not copied although the mask is true. -/
theorem C49_uncertain_mask_bool_refuted :
    ∃ (dst src w : UA Bool) (r : UA Bool), dst.Valid ∧ src.Valid ∧ w.Valid ∧
      (∀ e, w.nominal.atB e = true) ∧ (∀ e, w.distribution.atB e = true) ∧
      copyto true (some id) dst (.unc src) (.unc w) = .ok r ∧
      r.nominal.at' (fun _ => 0) ≠ src.nominal.at' (fun _ => 0) := by
  have h : (copyto true (some id) (⟨SA.scalar true, SA.scalar true⟩ : UA Bool)
      (.unc ⟨SA.scalar false, SA.scalar false⟩) (.unc ⟨SA.scalar true, SA.scalar true⟩)).map
      (fun r => r.nominal.at' (fun _ => 0)) = .ok true := by decide +kernel
  cases hr : copyto true (some id) (⟨SA.scalar true, SA.scalar true⟩ : UA Bool)
      (.unc ⟨SA.scalar false, SA.scalar false⟩) (.unc ⟨SA.scalar true, SA.scalar true⟩) with
  | error e => rw [hr] at h; cases h
  | ok r =>
    rw [hr] at h
    injection h with h
    exact ⟨_, _, _, r, ⟨by decide, by decide, by decide⟩, ⟨by decide, by decide, by decide⟩,
      ⟨by decide, by decide, by decide⟩, fun _ => rfl, fun _ => rfl, hr, by
        have h' : r.nominal.at' (fun _ => 0) = true := h
        rw [h']; decide⟩

/-- **C49** (an uncertain mask with a plain source) raises `TypeError`. -/
theorem C49_uncertain_mask_plain_source (allowed : Bool) (asMask : Option (α → Bool)) (dst : UA α) (src : SA α)
    (w : UA Bool) : copyto allowed asMask dst (.plain src) (.unc w) = .error .typeError := rfl

example : exU.Valid ∧ UArg.Ok (.plain (SA.scalar (7 : Int))) ∧ (SA.scalar true).WF :=
  ⟨⟨by decide, by decide, by decide⟩, (by decide : (SA.scalar (7 : Int)).WF), by decide⟩
example : (copyto true none exV (.unc exU) (.plain ⟨["x"], ND.ofList [2] [true, false] false⟩)).isOk = false := by
  decide +kernel
/-- samples which depend on `x` -/
def exSamples : SA Int := ⟨["x", axisD], ND.ofList [2, 3] [1, 2, 3, 4, 5, 6] 0⟩
example : (copyto true none ⟨exV.nominal, exSamples⟩ (.unc exU)
      (.plain ⟨["x"], ND.ofList [2] [true, false] false⟩)).map
    (fun r => (r.nominal.nd.toList, r.distribution.nd.toList)) = .ok ([5, 2], [4, 5, 6, 4, 5, 6]) := by
  decide +kernel

end UA
end NA
