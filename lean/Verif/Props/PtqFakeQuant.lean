import Verif.Model.PtqFakeQuant
import Mathlib.Tactic.NormNum
/-!
C130: validating a calibrated model uses what calibration found.
-/

namespace Verif.Props
open Verif.Model Verif.Model.PtqFakeQuant

variable {S I : Type}

/-- Calibrating only feeds the observer. -/
theorem ptq_calibrate (observe : S → (I → ℝ) → S) (qparams : S → List ℝ × List Int) (channel : I → Nat) (xs : List (I → ℝ)) : ∀ m : Ptq S,
    PtqFakeQuant.runAll observe qparams channel m.calibrate xs = some ({ m.calibrate with observer := xs.foldl observe m.observer }, xs) := by
  induction xs with
  | nil => intro m; rfl
  | cons x r ih =>
    intro m
    have h1 : forward observe qparams channel m.calibrate x = some (({ m with observer := observe m.observer x } : Ptq S).calibrate, x) := by
      simp [forward, Ptq.calibrate]
    rw [PtqFakeQuant.runAll, h1]
    simp only
    rw [ih]
    rfl

/-- What a tensor becomes with one scale and one zero point. -/
noncomputable def roundedTo (qmin qmax : Int) (s : ℝ) (z : Int) (x : I → ℝ) : I → ℝ := fun i => ((clampInt qmin qmax (z + roundEven (x i * (1 / s))) - z : Int) : ℝ) * s

/-- **C130**.  A fresh per-tensor module that is calibrated on any tensors and then used for validation, any number of times, quantizes every tensor with exactly the scale and the zero point its observer gives for
all of the calibration data, and changes neither of them. -/
theorem C130_calibrated_partial (observe : S → (I → ℝ) → S) (qparams : S → List ℝ × List Int) (m : Ptq S) (hs : m.scale = [1]) (hz : m.zeroPoint = [0])
    (xs ys : List (I → ℝ)) (s : ℝ) (z : Int) (hq : qparams (xs.foldl observe m.observer) = ([s], [z])) :
    ∃ m1, PtqFakeQuant.runAll observe qparams (fun _ => 0) m.calibrate xs = some (m1, xs) ∧ m1.observer = xs.foldl observe m.observer ∧
      ∃ m2, PtqFakeQuant.runAll observe qparams (fun _ => 0) m1.validate ys = some (m2, ys.map (roundedTo m.quantMin m.quantMax s z)) ∧ m2.observer = m1.observer ∧
        (ys ≠ [] → m2.scale = [s] ∧ m2.zeroPoint = [z]) := by
  refine ⟨_, ptq_calibrate observe qparams (fun _ => 0) xs m, rfl, ?_⟩
  have one : ∀ (m1 : Ptq S) (y : I → ℝ), m1.quantMin = m.quantMin → m1.quantMax = m.quantMax → qparams m1.observer = ([s], [z]) →
      ((m1.scale = [1] ∧ m1.zeroPoint = [0]) ∨ (m1.scale = [s] ∧ m1.zeroPoint = [z])) →
      ∃ m2, forward observe qparams (fun _ => 0) m1.validate y = some (m2, roundedTo m.quantMin m.quantMax s z y) ∧ m2 = m2.validate ∧ m2.quantMin = m.quantMin ∧ m2.quantMax = m.quantMax ∧
        m2.observer = m1.observer ∧ m2.scale = [s] ∧ m2.zeroPoint = [z] := by
    intro m1 y h1 h2 h3 h4
    have hfq : ∀ m3 : Ptq S, m3.scale = [s] → m3.zeroPoint = [z] → m3.quantMin = m.quantMin → m3.quantMax = m.quantMax →
        fakeQuantize (fun _ => 0) m3 y = roundedTo m.quantMin m.quantMax s z y := by
      intro m3 e1 e2 e3 e4
      unfold fakeQuantize roundedTo
      simp [e1, e2, e3, e4]
    obtain ⟨b, hb⟩ : ∃ b, stale m1.validate = some b := by
      rcases h4 with ⟨h, h'⟩ | ⟨h, h'⟩ <;> simp [stale, Ptq.validate, h, h']
    cases hbv : b with
    | true =>
      subst hbv
      have hval : forward observe qparams (fun _ => 0) m1.validate y = some ({ m1.validate with scale := [s], zeroPoint := [z] }, roundedTo m.quantMin m.quantMax s z y) := by
        unfold forward
        simp only [Ptq.validate, Bool.false_eq_true, if_false, if_true] at hb ⊢
        rw [hb]
        simp only [if_true, h3]
        rw [hfq ⟨false, true, m1.observer, [s], [z], m1.quantMin, m1.quantMax⟩ rfl rfl h1 h2]
      exact ⟨_, hval, rfl, h1, h2, rfl, rfl, rfl⟩
    | false =>
      subst hbv
      have h4' : m1.scale = [s] ∧ m1.zeroPoint = [z] := by
        rcases h4 with ⟨h, h'⟩ | h
        · simp [stale, Ptq.validate, h, h'] at hb
        · exact h
      have hval : forward observe qparams (fun _ => 0) m1.validate y = some (m1.validate, roundedTo m.quantMin m.quantMax s z y) := by
        unfold forward
        simp only [Ptq.validate, Bool.false_eq_true, if_false, if_true] at hb ⊢
        rw [hb]
        simp only [Bool.false_eq_true, if_false]
        rw [hfq ⟨false, true, m1.observer, m1.scale, m1.zeroPoint, m1.quantMin, m1.quantMax⟩ h4'.1 h4'.2 h1 h2]
      exact ⟨_, hval, rfl, h1, h2, rfl, h4'.1, h4'.2⟩
  have all : ∀ (ys : List (I → ℝ)) (m1 : Ptq S), m1.quantMin = m.quantMin → m1.quantMax = m.quantMax → qparams m1.observer = ([s], [z]) →
      ((m1.scale = [1] ∧ m1.zeroPoint = [0]) ∨ (m1.scale = [s] ∧ m1.zeroPoint = [z])) →
      ∃ m2, PtqFakeQuant.runAll observe qparams (fun _ => 0) m1.validate ys = some (m2, ys.map (roundedTo m.quantMin m.quantMax s z)) ∧ m2.observer = m1.observer ∧
        (ys ≠ [] → m2.scale = [s] ∧ m2.zeroPoint = [z]) := by
    intro ys
    induction ys with
    | nil => intro m1 _ _ _ _; exact ⟨_, rfl, rfl, fun h => absurd rfl h⟩
    | cons y r ih =>
      intro m1 h1 h2 h3 h4
      obtain ⟨m2, g1, g2, g3, g4, g5, g6, g7⟩ := one m1 y h1 h2 h3 h4
      obtain ⟨m3, k1, k2, k3⟩ := ih m2 g3 g4 (by rw [g5]; exact h3) (.inr ⟨g6, g7⟩)
      rw [← g2] at k1
      refine ⟨m3, ?_, by rw [k2, g5], fun _ => ?_⟩
      · rw [PtqFakeQuant.runAll, g1]
        simp only
        rw [k1]
        rfl
      · cases r with
        | nil =>
          rw [PtqFakeQuant.runAll] at k1
          simp only [Option.some.injEq, Prod.mk.injEq] at k1
          rw [← k1.1]
          exact ⟨g6, g7⟩
        | cons _ _ => exact k3 (by simp)
  have := all ys { m.calibrate with observer := xs.foldl observe m.observer } rfl rfl hq (.inl ⟨hs, hz⟩)
  simpa [Ptq.validate, Ptq.calibrate] using this

/-- A fresh module for signed numbers with an observer of the largest magnitude, over tensors with one entry. -/
def ptqFresh : Ptq ℝ := ⟨true, false, 0, [1], [0], -128, 127⟩

/-- The observer: the largest magnitude, or 1 for none at all, in 127 steps. -/
noncomputable def ptqObs : ℝ → (Unit → ℝ) → ℝ := fun s x => max s |x ()|

noncomputable def ptqParams : ℝ → List ℝ × List Int := fun s => ([s / 127], [0])

example : ptqFresh.scale = [1] ∧ ptqFresh.zeroPoint = [0] ∧ ptqParams ([fun _ => (-254 : ℝ)].foldl ptqObs ptqFresh.observer) = ([2], [0]) := by
  refine ⟨rfl, rfl, ?_⟩
  simp [ptqParams, ptqObs, ptqFresh]
  norm_num

/-- Calibrating again after the model has been validated once changes nothing: whatever the observer sees, the scale and the zero point of the first calibration stay, unless that scale happened to be one. -/
theorem C130_recalibration_false (observe : S → (I → ℝ) → S) (qparams : S → List ℝ × List Int) (channel : I → Nat) (m : Ptq S) (s : ℝ) (z : Int) (hs : m.scale = [s]) (hz : m.zeroPoint = [z])
    (h1 : s ≠ 1) (h2 : s * ((m.quantMax - m.quantMin + 1 : Int) : ℝ) ≠ 256) (xs : List (I → ℝ)) (y : I → ℝ) :
    ∃ m1 m2 v, PtqFakeQuant.runAll observe qparams channel m.calibrate xs = some (m1, xs) ∧ m1.observer = xs.foldl observe m.observer ∧
      forward observe qparams channel m1.validate y = some (m2, v) ∧ m2.scale = [s] ∧ m2.zeroPoint = [z] := by
  refine ⟨_, { m.validate with observer := xs.foldl observe m.observer }, fakeQuantize channel { m.validate with observer := xs.foldl observe m.observer } y, ptq_calibrate observe qparams channel xs m, rfl, ?_, hs, hz⟩
  have hst : stale ({ m.calibrate with observer := xs.foldl observe m.observer } : Ptq S).validate = some false := by
    simp [stale, Ptq.validate, Ptq.calibrate, hs, hz, h1]
    exact_mod_cast h2
  unfold forward
  simp only [Ptq.validate, Ptq.calibrate, Bool.false_eq_true, if_false, if_true] at hst ⊢
  rw [hst]
  rfl

example : (2 : ℝ) ≠ 1 ∧ (2 : ℝ) * (((127 : Int) - (-128) + 1 : Int) : ℝ) ≠ 256 := by norm_num

/-- A module with one scale per channel works once: every later call that quantizes is an error. -/
theorem C130_per_channel_false (observe : S → (I → ℝ) → S) (qparams : S → List ℝ × List Int) (channel : I → Nat) (m : Ptq S) (hs : m.scale = [1]) (hz : m.zeroPoint = [0])
    (hq : ∀ s, 2 ≤ (qparams s).1.length) (x y : I → ℝ) :
    ∃ m1 v, forward observe qparams channel m.validate x = some (m1, v) ∧ forward observe qparams channel m1 y = none := by
  refine ⟨{ m.validate with scale := (qparams m.observer).1, zeroPoint := (qparams m.observer).2 },
    fakeQuantize channel { m.validate with scale := (qparams m.observer).1, zeroPoint := (qparams m.observer).2 } x, ?_, ?_⟩
  · have hst : stale m.validate = some true := by simp [stale, Ptq.validate, hs, hz]
    unfold forward
    simp only [Ptq.validate, Bool.false_eq_true, if_false, if_true] at hst ⊢
    rw [hst]
    rfl
  · have hst : stale ({ m.validate with scale := (qparams m.observer).1, zeroPoint := (qparams m.observer).2 } : Ptq S) = none := by
      have := hq m.observer
      unfold stale
      simp only
      split
      · rename_i s z h _
        rw [h] at this
        simp at this
      · rfl
    unfold forward
    simp only [Ptq.validate, Bool.false_eq_true, if_false, if_true] at hst ⊢
    rw [hst]

end Verif.Props
