import Verif.Model.QuantStore
import Mathlib.Tactic.Ring
import Mathlib.Tactic.Linarith
import Mathlib.Tactic.FieldSimp
import Mathlib.Tactic.NormNum
import Mathlib.Algebra.Order.Round
import Mathlib.Data.Real.Archimedean

/-! C19: changing the storage type keeps the represented values.  C46: quantized scalars are exact. -/

namespace Verif.Props
open Verif.Spec Verif.Model

theorem wrapI8_shift {q : Int} (h : InU8 q) : wrapI8 (q - 128) = q - 128 := by
  obtain ⟨h1, h2⟩ := h; unfold wrapI8; omega

theorem wrapU8_shift {q : Int} (h : InI8 q) : wrapU8 (wrapU8 q + 128) = q + 128 := by
  obtain ⟨h1, h2⟩ := h; unfold wrapU8; omega

/-- C19, unsigned to unsigned or signed 8 bit: the represented value is unchanged and the stored integer is in range, in
asymmetric mode for every zero point and in symmetric mode for the zero point 128. -/
theorem C19_quint8_to_8bit_partial (qt : QType) (hqt : qt ≠ .i16) (asymmetric : Bool) (scale : ℝ) (zp q : Int) (hq : InU8 q)
    (hz : asymmetric = true ∨ zp = 128) :
    dequant (storeQuint8 qt asymmetric scale zp q).scale (storeQuint8 qt asymmetric scale zp q).zp
      (storeQuint8 qt asymmetric scale zp q).q = dequant scale zp q ∧
    (if qt = .u8 then InU8 (storeQuint8 qt asymmetric scale zp q).q else InI8 (storeQuint8 qt asymmetric scale zp q).q) := by
  have hoff : (if asymmetric = true then zp else 128) = zp := by
    rcases hz with h | h
    · simp [h]
    · simp [h]
  cases qt with
  | u8 => simp [storeQuint8, hq]
  | i8 =>
    simp only [storeQuint8, hoff, wrapI8_shift hq]
    obtain ⟨h1, h2⟩ := hq
    refine ⟨?_, by constructor <;> simp <;> omega⟩
    simp only [dequant]
    push_cast
    simp
  | i16 => exact absurd rfl hqt

example : InU8 200 ∧ storeQuint8 .i8 true 1 7 200 = ⟨72, 1, -121⟩ := by
  refine ⟨by simp [InU8], ?_⟩
  simp [storeQuint8, wrapI8]

/-- C19, signed 8 bit: whenever the constructor accepts the tensor the represented value is unchanged and the stored integer is
in range; it refuses only an asymmetric unsigned conversion with a non-zero zero point. -/
theorem C19_qint8 (qt : QType) (asymmetric : Bool) (scale : ℝ) (zp q : Int) (hq : InI8 q) :
    (storeQint8 qt asymmetric scale zp q = none ↔ qt = .u8 ∧ asymmetric = true ∧ zp ≠ 0) ∧
    ∀ s, storeQint8 qt asymmetric scale zp q = some s →
      dequant s.scale s.zp s.q = dequant scale zp q ∧ (if qt = .u8 then InU8 s.q else InI8 s.q) := by
  constructor
  · unfold storeQint8
    by_cases h1 : qt = .u8
    · by_cases h2 : asymmetric = true
      · by_cases h3 : zp = 0 <;> simp [h1, h2, h3]
      · simp [h1, h2]
    · simp [h1]
  · intro s hs
    unfold storeQint8 at hs
    obtain ⟨q1, q2⟩ := hq
    by_cases h1 : qt = .u8
    · rw [if_pos h1] at hs
      rw [wrapU8_shift ⟨q1, q2⟩] at hs
      split at hs
      · split at hs
        · rename_i hz
          cases hs
          refine ⟨?_, ?_⟩
          · simp only [dequant, hz]; push_cast; ring
          · rw [if_pos h1]; constructor <;> simp <;> omega
        · cases hs
      · cases hs
        refine ⟨?_, ?_⟩
        · simp only [dequant]; push_cast; ring
        · rw [if_pos h1]; constructor <;> simp <;> omega
    · rw [if_neg h1] at hs
      cases hs
      exact ⟨rfl, by rw [if_neg h1]; exact ⟨q1, q2⟩⟩

/-- C19, per-channel signed 8 bit: an accepted tensor keeps its integers and its channel's scale, with zero point 0. -/
theorem C19_per_channel (qt : QType) (scales : List ℝ) (zps : List Int) (q : Int) (c : Nat) (hc : c < zps.length) (s : Stored)
    (hs : storePerChannel qt scales zps q c = some s) :
    dequant s.scale s.zp s.q = dequant (scales.getD c 0) (zps.getD c 0) q ∧ s.zp = 0 := by
  unfold storePerChannel at hs
  split at hs
  · cases hs
  · split at hs
    · rename_i hz
      cases hs
      refine ⟨rfl, ?_⟩
      rw [List.all_eq_true] at hz
      have := hz zps[c] (List.getElem_mem hc)
      simpa [List.getD, hc] using this
    · cases hs

example : storePerChannel .i8 [1, 2] [0, 0] (-5) 1 = some ⟨-5, 2, 0⟩ := by simp [storePerChannel]

/-- C19, unsigned 8 bit to 16 bit, partial: correct for the zero point 128.  Missing: other zero points, for which the value is
wrong (`C19_int16_false`). -/
theorem C19_int16_partial (asymmetric : Bool) (scale : ℝ) (q : Int) (hq : InU8 q) :
    dequant (storeQuint8 .i16 asymmetric scale 128 q).scale (storeQuint8 .i16 asymmetric scale 128 q).zp
      (storeQuint8 .i16 asymmetric scale 128 q).q = dequant scale 128 q ∧
    InI16 (storeQuint8 .i16 asymmetric scale 128 q).q := by
  obtain ⟨h1, h2⟩ := hq
  have e : wrapI16 (wrapI8 (q - 128) * 256) = (q - 128) * 256 := by
    rw [wrapI8_shift ⟨h1, h2⟩]; unfold wrapI16; omega
  have hoff : (if asymmetric = true then (128 : Int) else 128) = 128 := by simp
  simp only [storeQuint8, hoff, e]
  refine ⟨?_, by constructor <;> simp <;> omega⟩
  simp only [dequant]
  push_cast
  simp
  ring

/-- C19 is false in symmetric mode: with a zero point other than 128 (the constructor only logs a warning) every element of the
signed tensor has the wrong value. -/
theorem C19_symmetric_false (scale : ℝ) (hs : scale ≠ 0) (zp q : Int) (hq : InU8 q) (hz : zp ≠ 128) :
    dequant (storeQuint8 .i8 false scale zp q).scale (storeQuint8 .i8 false scale zp q).zp
      (storeQuint8 .i8 false scale zp q).q ≠ dequant scale zp q := by
  have e : storeQuint8 .i8 false scale zp q = { q := q - 128, scale := scale, zp := 128 - 128 } := by
    simp [storeQuint8, wrapI8_shift hq]
  rw [e]
  simp only [dequant]
  intro h
  have h2 := mul_left_cancel₀ hs h
  push_cast at h2
  apply hz
  have : (zp : ℝ) = 128 := by linarith
  exact_mod_cast this

/-- C19 is false for 16 bit storage: the integers are multiplied by 256 but the zero point is not, so with a zero point other
than 128 every element has the wrong value. -/
theorem C19_int16_false (scale : ℝ) (hs : scale ≠ 0) (zp q : Int) (hq : InU8 q) (hz : zp ≠ 128) :
    dequant (storeQuint8 .i16 true scale zp q).scale (storeQuint8 .i16 true scale zp q).zp
      (storeQuint8 .i16 true scale zp q).q ≠ dequant scale zp q := by
  obtain ⟨h1, h2⟩ := hq
  have e : storeQuint8 .i16 true scale zp q = { q := (q - 128) * 256, scale := scale * 256 / 65536, zp := zp - 128 } := by
    have : wrapI16 (wrapI8 (q - 128) * 256) = (q - 128) * 256 := by
      rw [wrapI8_shift ⟨h1, h2⟩]; unfold wrapI16; omega
    simp [storeQuint8, this]
  rw [e]
  simp only [dequant]
  intro h
  have h3 : scale * (((q : ℝ) - 128) - ((zp : ℝ) - 128) / 256) = scale * ((q : ℝ) - zp) := by
    rw [← h]; push_cast; ring
  have h4 := mul_left_cancel₀ hs h3
  apply hz
  have : (zp : ℝ) = 128 := by linarith
  exact_mod_cast this

theorem nearest_int {rnd : ℝ → Int} (h : IsNearest rnd) (n : Int) : rnd n = n := by
  have := h n
  have h2 : |((rnd n - n : Int) : ℝ)| ≤ 1 / 2 := by push_cast; exact this
  have h3 : |((rnd n - n : Int) : ℝ)| < 1 := by linarith
  have h4 : |rnd n - n| < 1 := by exact_mod_cast h3
  have := abs_lt.1 h4
  omega

/-- C46: a float scalar combined with a quantized tensor is stored with exactly its value, for every storage type and rounding
mode. -/
theorem C46_scalar_exact (rnd : ℝ → Int) (hr : IsNearest rnd) (qt : QType) (asymmetric : Bool) (x : ℝ) :
    ∃ s, storeScalar rnd qt asymmetric x = some s ∧ dequant s.scale s.zp s.q = x := by
  have r0 : rnd (0 / (1 / 2)) = 0 := by
    have := nearest_int hr 0
    simpa using this
  have rneg : x < 0 → rnd (x / (-x / 127)) = -127 := by
    intro hx
    have : x / (-x / 127) = ((-127 : Int) : ℝ) := by
      have : x ≠ 0 := ne_of_lt hx
      push_cast; field_simp
    rw [this]; exact nearest_int hr _
  have rpos : 0 < x → rnd (x / (x / 127)) = 127 := by
    intro hx
    have : x / (x / 127) = ((127 : Int) : ℝ) := by
      have : x ≠ 0 := ne_of_gt hx
      push_cast; field_simp
    rw [this]; exact nearest_int hr _
  unfold storeScalar
  by_cases h0 : x = 0
  · subst h0
    cases qt <;>
    · simp only [if_true, torchQuantize, r0]
      refine ⟨_, rfl, ?_⟩
      cases asymmetric <;> simp [dequant, storeQuint8, storeQint8, wrapI8, wrapI16]
  · rcases lt_or_gt_of_ne h0 with hx | hx
    · cases qt <;>
      · simp only [h0, hx, if_false, if_true, torchQuantize, rneg hx]
        refine ⟨_, rfl, ?_⟩
        cases asymmetric <;> simp [dequant, storeQuint8, storeQint8, wrapI8, wrapI16] <;> ring
    · have hn : ¬ x < 0 := not_lt.2 (le_of_lt hx)
      cases qt <;>
      · simp only [h0, hn, if_false, torchQuantize, rpos hx]
        refine ⟨_, rfl, ?_⟩
        cases asymmetric <;> simp [dequant, storeQuint8, storeQint8, wrapI8, wrapI16] <;> ring

/-- Rounding to nearest exists, so the hypothesis is satisfiable. -/
theorem exists_nearest : IsNearest (fun x : ℝ => round x) := by
  intro x
  rw [abs_sub_comm]
  exact abs_sub_round x

end Verif.Props
