import Verif.Model.FakeQuant
import Mathlib.Tactic.Linarith
import Mathlib.Tactic.NormNum
import Mathlib.Tactic.FieldSimp
import Mathlib.Tactic.Ring

/-!
C37: the fake quantizer used for TFLite.
-/

namespace Verif.Props
open Verif.Model Verif.Spec

private theorem roundEven_spec (r : ℝ) : NearestEven r (roundEven r) := by
  have h0 := Int.floor_le r
  have h1 := Int.lt_floor_add_one r
  unfold NearestEven Nearest roundEven
  split
  · rename_i h
    refine ⟨by rw [abs_le]; constructor <;> linarith, fun he => ?_⟩
    rw [abs_of_nonneg (by linarith)] at he; linarith
  · split
    · rename_i h h'
      push_cast
      refine ⟨by rw [abs_le]; constructor <;> linarith, fun he => ?_⟩
      rw [abs_of_nonpos (by linarith)] at he; linarith
    · rename_i h h'
      split
      · rename_i hev
        exact ⟨by rw [abs_le]; constructor <;> linarith, fun _ => hev⟩
      · rename_i hev
        push_cast
        refine ⟨by rw [abs_le]; constructor <;> linarith, fun _ => ?_⟩
        exact Int.even_add_one.mpr hev

/-- `NearestAway` names one integer. -/
theorem C37_away_unique (r : ℝ) (m n : ℤ) (hm : NearestAway r m) (hn : NearestAway r n) : m = n := by
  obtain ⟨hm1, hm2⟩ := hm
  obtain ⟨hn1, hn2⟩ := hn
  unfold Nearest at *
  by_contra hne
  have key : ∀ (m n : ℤ), |r - m| ≤ 1 / 2 → |r - n| ≤ 1 / 2 → m < n → m + 1 = n ∧ r = m + 1 / 2 := by
    intro m n hm hn hlt
    have h1 := abs_le.mp hm
    have h2 := abs_le.mp hn
    have hlt' : (m : ℝ) + 1 ≤ n := by exact_mod_cast hlt
    constructor
    · have : (n : ℝ) ≤ m + 1 := by linarith
      have : n ≤ m + 1 := by exact_mod_cast this
      omega
    · linarith
  have fin : ∀ (m n : ℤ), m + 1 = n → r = m + 1 / 2 → (|r - m| = 1 / 2 → |r| < |(m : ℝ)|) → (|r - n| = 1 / 2 → |r| < |(n : ℝ)|) → False := by
    intro m n h1 h2 h3 h4
    have e1 := h3 (by rw [h2]; norm_num)
    have e2 := h4 (by rw [h2, ← h1]; push_cast; rw [show (m : ℝ) + 1 / 2 - (m + 1) = -(1 / 2) by ring, abs_neg]; norm_num)
    rcases le_or_gt 0 m with h | h
    · have : (0 : ℝ) ≤ m := by exact_mod_cast h
      rw [abs_of_nonneg this, abs_of_nonneg (by linarith), h2] at e1
      linarith
    · have hn0 : n ≤ 0 := by omega
      have : (n : ℝ) ≤ 0 := by exact_mod_cast hn0
      have hmn : (m : ℝ) + 1 = n := by exact_mod_cast h1
      rw [abs_of_nonpos this, abs_of_nonpos (by linarith), h2] at e2
      linarith
  rcases lt_or_gt_of_ne hne with h | h
  · obtain ⟨a, b⟩ := key m n hm1 hn1 h
    exact fin m n a b hm2 hn2
  · obtain ⟨a, b⟩ := key n m hn1 hm1 h
    exact fin n m a b hn2 hm2

/-- The perturbed value rounds to nearest with ties away from zero, unless the value is within `1e-6` below a tie in absolute value. -/
private theorem perturbed_round (r : ℝ) (h : ∀ k : ℤ, ¬ (|r| < k + 1 / 2 ∧ (k : ℝ) + 1 / 2 ≤ |r| + 1 / 1000000)) :
    NearestAway r (roundEven (r + 1 / 1000000 * Real.sign r)) := by
  obtain ⟨hn, _⟩ := roundEven_spec (r + 1 / 1000000 * Real.sign r)
  set n := roundEven (r + 1 / 1000000 * Real.sign r) with hndef
  unfold Nearest at hn
  rcases lt_trichotomy r 0 with hr | hr | hr
  · rw [Real.sign_of_neg hr] at hn
    have hb := abs_le.mp hn
    have hlow := h (-n - 1)
    rw [abs_of_neg hr] at hlow
    push_cast at hlow
    -- r - 1e-6 ∈ [n - 1/2, n + 1/2]
    have hup : r - n ≤ 1 / 2 := by
      by_contra hc
      push Not at hc
      exact hlow ⟨by linarith, by linarith⟩
    refine ⟨abs_le.mpr ⟨by linarith, hup⟩, fun he => ?_⟩
    have hrn : r - n = 1 / 2 := by
      rcases abs_choice (r - n) with h1 | h1
      · linarith
      · linarith
    have : (n : ℝ) < 0 := by linarith
    rw [abs_of_neg hr, abs_of_neg this]; linarith
  · subst hr
    simp only [Real.sign_zero, mul_zero, add_zero] at hn hndef ⊢
    have hb := abs_le.mp hn
    have h1 : (-1 : ℝ) < n := by linarith
    have h2 : (n : ℝ) < 1 := by linarith
    have h1' : (-1 : ℤ) < n := by exact_mod_cast h1
    have h2' : n < (1 : ℤ) := by exact_mod_cast h2
    have hn0 : n = 0 := by omega
    rw [hn0]
    refine ⟨by unfold Nearest; norm_num, fun he => ?_⟩
    norm_num at he
  · rw [Real.sign_of_pos hr] at hn
    have hb := abs_le.mp hn
    have hup := h n
    rw [abs_of_pos hr] at hup
    have hlow := h (n - 1)
    rw [abs_of_pos hr] at hlow
    push_cast at hlow
    have hlow' : -(1 / 2) ≤ r - n := by
      by_contra hc
      push Not at hc
      exact hlow ⟨by linarith, by linarith⟩
    refine ⟨abs_le.mpr ⟨hlow', by linarith⟩, fun he => ?_⟩
    have hrn : r - n = -(1 / 2) := by
      rcases abs_choice (r - n) with h1 | h1
      · linarith
      · linarith
    have : (0 : ℝ) < n := by linarith
    rw [abs_of_pos hr, abs_of_pos this]; linarith

/-- **C37** A forward pass puts both switches back, and shows the observer, if it is enabled, exactly the input. -/
theorem C37_switches {S I : Type} (observe : S → (I → ℝ) → S) (qparams : S → ℝ × ℤ) (m : FakeQuant S) (x : I → ℝ) :
    (tfliteForward observe qparams m x).1.observerEnabled = m.observerEnabled
    ∧ (tfliteForward observe qparams m x).1.fakeQuantEnabled = m.fakeQuantEnabled
    ∧ (tfliteForward observe qparams m x).1.observer = (if m.observerEnabled then observe m.observer x else m.observer)
    ∧ (m.fakeQuantEnabled = false → (tfliteForward observe qparams m x).2 = x) := by
  cases ho : m.observerEnabled <;> cases hf : m.fakeQuantEnabled <;>
    simp [tfliteForward, tfliteObserve, tfliteQuantize, superForward, ho, hf]

/-- **C37** With fake quantization on, every element becomes the clamped value of its quotient by the scale, rounded to nearest with ties away from
zero; scale and zero point are those after the observer has seen the input.  Partial: values less than a millionth of the scale below a tie (in
absolute value) are left out. -/
theorem C37_rounding_partial {S I : Type} (observe : S → (I → ℝ) → S) (qparams : S → ℝ × ℤ) (m : FakeQuant S) (x : I → ℝ) (hf : m.fakeQuantEnabled = true)
    (scale : ℝ) (zp : ℤ) (hq : (scale, zp) = if m.observerEnabled then qparams (observe m.observer x) else (m.scale, m.zeroPoint)) (hs : 0 < scale)
    (i : I) (hi : ∀ k : ℤ, ¬ (|x i / scale| < k + 1 / 2 ∧ (k : ℝ) + 1 / 2 ≤ |x i / scale| + 1 / 1000000)) :
    ∃ n : ℤ, NearestAway (x i / scale) n
      ∧ (tfliteForward observe qparams m x).2 i = ((min (max (zp + n) m.quantMin) m.quantMax - zp : ℤ) : ℝ) * scale := by
  refine ⟨roundEven (x i / scale + 1 / 1000000 * Real.sign (x i / scale)), perturbed_round _ hi, ?_⟩
  have hsign : Real.sign (x i / scale) = Real.sign (x i) := by
    rcases lt_trichotomy (x i) 0 with h | h | h
    · rw [Real.sign_of_neg h, Real.sign_of_neg (div_neg_of_neg_of_pos h hs)]
    · rw [h]; simp
    · rw [Real.sign_of_pos h, Real.sign_of_pos (div_pos h hs)]
  have harg : (x i + scale * (1 / 1000000) * Real.sign (x i)) * (1 / scale) = x i / scale + 1 / 1000000 * Real.sign (x i / scale) := by
    rw [hsign]; field_simp
  rw [← harg]
  cases ho : m.observerEnabled
  · rw [ho] at hq
    simp only [Bool.false_eq_true, if_false, Prod.mk.injEq] at hq
    obtain ⟨h1, h2⟩ := hq
    subst h1 h2
    simp [tfliteForward, tfliteQuantize, superForward, ho, hf, clampInt]
  · rw [ho] at hq
    simp only [if_true] at hq
    have h1 : scale = (qparams (observe m.observer x)).1 := by rw [← hq]
    have h2 : zp = (qparams (observe m.observer x)).2 := by rw [← hq]
    subst h1 h2
    simp [tfliteForward, tfliteObserve, tfliteQuantize, superForward, ho, hf, clampInt]

/-- A tie meets the hypotheses: 2.5 is not excluded. -/
example (k : ℤ) : ¬ (|(5 : ℝ) / 2| < k + 1 / 2 ∧ (k : ℝ) + 1 / 2 ≤ |(5 : ℝ) / 2| + 1 / 1000000) := by
  rw [abs_of_pos (by norm_num)]
  rintro ⟨h1, h2⟩
  have h3 : (2 : ℝ) < k := by linarith
  have h4 : (k : ℝ) < 3 := by linarith
  have h3' : (2 : ℤ) < k := by exact_mod_cast h3
  have h4' : k < (3 : ℤ) := by exact_mod_cast h4
  omega

/-- A value just below a tie is rounded up although its nearest integer is zero. -/
theorem C37_below_tie_false : ∃ (m : FakeQuant Unit) (x : ℝ), m.fakeQuantEnabled = true ∧ m.scale = 1 ∧ NearestAway (x / m.scale) 0
    ∧ (tfliteForward (fun s _ => s) (fun _ => (1, 0)) m (fun _ : Unit => x)).2 () = 1 := by
  have hfl : ⌊(1 / 2 - 5 / 10000000 + 1 * (1 / 1000000) * 1 : ℝ) * (1 / 1)⌋ = 0 := by
    rw [Int.floor_eq_iff]; norm_num
  refine ⟨⟨false, true, (), 1, 0, -128, 127⟩, 1 / 2 - 5 / 10000000, rfl, rfl, ⟨?_, ?_⟩, ?_⟩
  · unfold Nearest; norm_num [abs_le]
  · intro h; norm_num [abs_of_pos] at h
  · simp only [tfliteForward, tfliteQuantize, superForward]
    simp only [if_true, Bool.false_eq_true, if_false]
    rw [Real.sign_of_pos (by norm_num)]
    unfold roundEven
    rw [hfl]
    norm_num [clampInt]

/-- With per-channel scales the nudge is broadcast along the wrong dimension: three channels with a kernel of width five raise an error, and for a
kernel of width one the result has another shape. -/
theorem C37_per_channel_false : perChannelLast 3 5 = none ∧ perChannelLast 3 1 = some 3 := by decide

end Verif.Props
