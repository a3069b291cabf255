import Verif.Model.QScalar
import Verif.Props.QuantStore
import Mathlib.Tactic.LinearCombination
import Mathlib.Tactic.Positivity

/-! C76: quantized multiplication and addition with a Python number. -/

namespace Verif.Props

open Verif.Spec Verif.Model Verif.Spec.QScalar Verif.Model.QScalar

namespace QScalarAux

/-- Storing an 8-bit element shifts integer and zero point alike. -/
theorem store_eq (qt : QType) (hqt : qt ≠ .i16) (a : Q) (hq : InU8 a.q) :
    ∃ d : Int, store qt a = ⟨a.q - d, a.scale, a.zp - d⟩ ∧ qrange qt = (0 - d, 255 - d) ∧
      ∀ b : Q, (store qt b).scale = b.scale ∧ (store qt b).zp = b.zp - d ∧ (InU8 b.q → (store qt b).q = b.q - d) := by
  cases qt with
  | u8 => exact ⟨0, by simp [store, storeQuint8], by simp [qrange], by intro b; simp [store, storeQuint8]⟩
  | i8 =>
    refine ⟨128, ?_, by simp [qrange], ?_⟩
    · simp [store, storeQuint8, wrapI8_shift hq]
    · intro b
      refine ⟨by simp [store, storeQuint8], by simp [store, storeQuint8], ?_⟩
      intro hb
      simp [store, storeQuint8, wrapI8_shift hb]
  | i16 => exact absurd rfl hqt

theorem value_store (qt : QType) (hqt : qt ≠ .i16) (a : Q) (hq : InU8 a.q) : value (store qt a) = a.value := by
  obtain ⟨d, h, -, -⟩ := store_eq qt hqt a hq
  rw [h]
  simp only [value, Q.value, dequant]
  push_cast
  ring

theorem mul_value (c : ℝ) (a : Q) (hq : InU8 a.q) : (mulScalar c a).value = c * a.value ∧ InU8 (mulScalar c a).q := by
  unfold mulScalar
  split_ifs with h1 h2
  · simp [Q.value, dequant, hq]; ring
  · simp [Q.value, dequant, h2, InU8]
  · have : |c| = -c := abs_of_nonpos (not_lt.1 h1)
    refine ⟨?_, ?_⟩
    · simp only [Q.value, dequant, this]; push_cast; ring
    · obtain ⟨a1, a2⟩ := hq; constructor <;> simp only <;> omega

end QScalarAux

open QScalarAux

/-- **C76, multiplication.** For every scalar other than −1, every scale, zero point and stored value, and every way of breaking
ties: the converted model's result stands for exactly `c` times the input's value, and the stored integer and the quantization
parameters are those of PyTorch's result. Partial: the scalar −1 (`C76_mul_neg_one_false`), 16-bit storage, and the kernels'
fixed-point multipliers are missing. -/
theorem C76_mul_partial (rndT rnd : ℝ → Int) (hT : IsNearest rndT) (hr : IsNearest rnd) (qt : QType) (hqt : qt ≠ .i16)
    (c : ℝ) (hc : c ≠ -1) (a : Q) (hs : 0 < a.scale) (hq : InU8 a.q) :
    ∃ r, mulConvert rndT rnd qt c a = some r ∧ value r = c * a.value ∧ r = store qt (mulScalar c a) := by
  obtain ⟨hv, hin⟩ := mul_value c a hq
  have key : ∀ r, r = store qt (mulScalar c a) → value r = c * a.value ∧ r = store qt (mulScalar c a) := by
    intro r e
    exact ⟨by rw [e, value_store qt hqt _ hin, hv], e⟩
  unfold mulConvert
  simp only [hc, if_false]
  obtain ⟨d, ha, hrange, hall⟩ := store_eq qt hqt a hq
  obtain ⟨e1, e2, e3⟩ := hall (mulScalar c a)
  by_cases h1 : c = 1
  · rw [if_pos h1]
    refine ⟨_, rfl, key _ ?_⟩
    have : mulScalar c a = a := by simp [mulScalar, h1]
    rw [this]
  · rw [if_neg h1]
    obtain ⟨b, hb, hbv⟩ := C46_scalar_exact rndT hT qt true c
    rw [hb]
    refine ⟨_, rfl, key _ ?_⟩
    have hb' : value b = c := hbv
    dsimp only
    rw [hb', value_store qt hqt a hq, e1, e2]
    have hsc : (mulScalar c a).scale ≠ 0 := by
      unfold mulScalar
      split_ifs with g1 g2
      · exact ne_of_gt (mul_pos g1 hs)
      · simp
      · exact mul_ne_zero (abs_ne_zero.2 g2) (ne_of_gt hs)
    have hx : a.value * c / (mulScalar c a).scale = (((mulScalar c a).q - (mulScalar c a).zp : Int) : ℝ) := by
      rw [div_eq_iff hsc, mul_comm a.value c, ← hv]
      simp only [Q.value, dequant]; push_cast; ring
    have hk : kernel rnd qt false (mulScalar c a).scale ((mulScalar c a).zp - d) (a.value * c) = (mulScalar c a).q - d := by
      unfold kernel
      rw [hx, nearest_int hr, hrange]
      obtain ⟨i1, i2⟩ := hin
      simp only [Bool.false_eq_true, if_false]
      omega
    rw [hk]
    have : store qt (mulScalar c a) = ⟨(mulScalar c a).q - d, (mulScalar c a).scale, (mulScalar c a).zp - d⟩ := by
      rw [← e1, ← e2, ← e3 hin]
    rw [this]

/-- 2.5 times the element 200 with scale 1/2 and zero point 100 is 125. -/
example : ∃ r, mulConvert (fun x => round x) (fun x => round x) .i8 (5 / 2) ⟨200, 1 / 2, 100⟩ = some r ∧ value r = 125 := by
  obtain ⟨r, h1, h2, -⟩ := C76_mul_partial _ _ exists_nearest exists_nearest .i8 (by simp) (5 / 2) (by norm_num)
    ⟨200, 1 / 2, 100⟩ (by norm_num) (by simp [InU8])
  refine ⟨r, h1, ?_⟩
  rw [h2]; simp [Q.value, dequant]; norm_num

/-- **C76, multiplication by −1.** The result stands for the negated value as long as the mirrored integer `2·zp − q` is a
byte. -/
theorem C76_mul_neg_one_partial (rndT rnd : ℝ → Int) (hT : IsNearest rndT) (hr : IsNearest rnd) (qt : QType) (hqt : qt ≠ .i16)
    (a : Q) (hs : 0 < a.scale) (hq : InU8 a.q) :
    ∃ r, mulConvert rndT rnd qt (-1) a = some r ∧
      value r = a.scale * (((max 0 (min 255 (2 * a.zp - a.q)) : Int) : ℝ) - a.zp) ∧
      (InU8 (2 * a.zp - a.q) → value r = -1 * a.value) := by
  unfold mulConvert
  obtain ⟨d, ha, hrange, hall⟩ := store_eq qt hqt a hq
  obtain ⟨b, hb, hbv⟩ := C46_scalar_exact rndT hT qt true (-1)
  have hb' : value b = -1 := hbv
  have hm : mulScalar (-1 * -1) a = a := by simp [mulScalar]
  have hne : ¬ ((-1 : ℝ) = 1) := by norm_num
  simp only [if_true, hm, hne, if_false, hb, Option.map_some]
  have main : value { store qt a with
        q := kernel rnd qt false (store qt a).scale (store qt a).zp (value (store qt a) * value b) }
      = a.scale * (((max 0 (min 255 (2 * a.zp - a.q)) : Int) : ℝ) - a.zp) := by
    rw [hb', value_store qt hqt a hq, ha]
    have hx : a.value * -1 / a.scale = ((a.zp - a.q : Int) : ℝ) := by
      rw [div_eq_iff (ne_of_gt hs)]; simp only [Q.value, dequant]; push_cast; ring
    have hk : kernel rnd qt false a.scale (a.zp - d) (a.value * -1) = max 0 (min 255 (2 * a.zp - a.q)) - d := by
      unfold kernel
      rw [hx, nearest_int hr, hrange]
      simp only [Bool.false_eq_true, if_false]
      omega
    simp only [value, dequant, hk]
    push_cast
    ring
  refine ⟨_, rfl, main, ?_⟩
  rintro ⟨i1, i2⟩
  rw [main]
  have : max 0 (min 255 (2 * a.zp - a.q)) = 2 * a.zp - a.q := by omega
  rw [this]
  simp only [Q.value, dequant]; push_cast; ring

/-- **C76 is false for the scalar −1.** With zero point 0 (the output of a ReLU, say) every positive value becomes 0 instead of
its negative, in 8-bit storage of either sign. -/
theorem C76_mul_neg_one_false (qt : QType) (hqt : qt ≠ .i16) (s : ℝ) (hs : 0 < s) (q : Int) (h1 : 1 ≤ q) (h2 : q ≤ 255) :
    ∃ r, mulConvert (fun x => round x) (fun x => round x) qt (-1) ⟨q, s, 0⟩ = some r ∧ value r = 0 ∧
      (mulScalar (-1) ⟨q, s, 0⟩).value = -(s * q) ∧ -(s * (q : ℝ)) < 0 := by
  obtain ⟨r, hr, hv, -⟩ := C76_mul_neg_one_partial _ _ exists_nearest exists_nearest qt hqt ⟨q, s, 0⟩ hs ⟨by simp; omega, h2⟩
  refine ⟨r, hr, ?_, ?_, ?_⟩
  · rw [hv]
    have : max 0 (min 255 (2 * 0 - q)) = 0 := by omega
    simp only [this]
    simp
  · rw [(mul_value (-1) ⟨q, s, 0⟩ ⟨by simp; omega, h2⟩).1]
    simp [Q.value, dequant]
  · have : (0 : ℝ) < q := by exact_mod_cast h1
    have := mul_pos hs this
    linarith

namespace QScalarAux

/-- PyTorch's output parameters for an addition: the scale does not shrink, and every sum is at most half a step outside the
output range. -/
theorem add_params (rndT : ℝ → Int) (hT : IsNearest rndT) (c : ℝ) (a : Q) (hs : 0 < a.scale) (hq : InU8 a.q) :
    a.scale ≤ (addScalar rndT c a).scale ∧
    (-(1 / 2) : ℝ) ≤ (a.value + c) / (addScalar rndT c a).scale + (addScalar rndT c a).zp ∧
    (a.value + c) / (addScalar rndT c a).scale + (addScalar rndT c a).zp ≤ 255 + 1 / 2 := by
  obtain ⟨q1, q2⟩ := hq
  have q1' : (0 : ℝ) ≤ a.q := by exact_mod_cast q1
  have q2' : (a.q : ℝ) ≤ 255 := by exact_mod_cast q2
  have hc := abs_le.1 (hT (c / a.scale))
  set cq := rndT (c / a.scale) with hcq
  have hx : a.value + c = a.scale * ((a.q : ℝ) - a.zp + c / a.scale) := by
    simp only [Q.value, dequant]; field_simp
  unfold addScalar
  simp only [← hcq]
  split_ifs with g1 g2
  · have g1' : ((a.zp - cq : Int) : ℝ) ≤ -1 := by exact_mod_cast (by omega : a.zp - cq ≤ -1)
    push_cast at g1'
    have hk : 0 < (255 - ((a.zp - cq : Int) : ℝ)) / 255 * a.scale := by push_cast; apply mul_pos _ hs; linarith
    have hle : a.scale ≤ (255 - ((a.zp - cq : Int) : ℝ)) / 255 * a.scale := by
      push_cast
      have : (1 : ℝ) ≤ (255 - ((a.zp : ℝ) - cq)) / 255 := by linarith
      nlinarith
    refine ⟨hle, ?_, ?_⟩
    · have : 0 ≤ (a.value + c) / ((255 - ((a.zp - cq : Int) : ℝ)) / 255 * a.scale) := by
        apply div_nonneg _ (le_of_lt hk)
        rw [hx]; apply mul_nonneg (le_of_lt hs); linarith
      push_cast at this ⊢; linarith
    · have : (a.value + c) / ((255 - ((a.zp - cq : Int) : ℝ)) / 255 * a.scale) ≤ 255 + 1 / 2 := by
        rw [div_le_iff₀ hk, hx]
        have : (255 + 1 / 2) * ((255 - ((a.zp - cq : Int) : ℝ)) / 255 * a.scale)
            = a.scale * ((255 - ((a.zp : ℝ) - cq)) * (255 + 1 / 2) / 255) := by push_cast; ring
        rw [this]
        apply mul_le_mul_of_nonneg_left _ (le_of_lt hs)
        linarith
      push_cast at this ⊢; linarith
  · have g2' : 256 ≤ ((a.zp - cq : Int) : ℝ) := by exact_mod_cast (by omega : 256 ≤ a.zp - cq)
    push_cast at g2'
    have hk : 0 < (((a.zp - cq : Int) : ℝ) - 0) / 255 * a.scale := by push_cast; apply mul_pos _ hs; linarith
    have hle : a.scale ≤ (((a.zp - cq : Int) : ℝ) - 0) / 255 * a.scale := by
      push_cast
      have : (1 : ℝ) ≤ (((a.zp : ℝ) - cq) - 0) / 255 := by linarith
      nlinarith
    refine ⟨hle, ?_, ?_⟩
    · have : -(255 + 1 / 2) ≤ (a.value + c) / ((((a.zp - cq : Int) : ℝ) - 0) / 255 * a.scale) := by
        rw [le_div_iff₀ hk, hx]
        have : -(255 + 1 / 2) * ((((a.zp - cq : Int) : ℝ) - 0) / 255 * a.scale)
            = a.scale * (-(((a.zp : ℝ) - cq) * (255 + 1 / 2) / 255)) := by push_cast; ring
        rw [this]
        apply mul_le_mul_of_nonneg_left _ (le_of_lt hs)
        linarith
      push_cast at this ⊢; linarith
    · have : (a.value + c) / ((((a.zp - cq : Int) : ℝ) - 0) / 255 * a.scale) ≤ 0 := by
        apply div_nonpos_of_nonpos_of_nonneg _ (le_of_lt hk)
        rw [hx]; apply mul_nonpos_of_nonneg_of_nonpos (le_of_lt hs); linarith
      push_cast at this ⊢; linarith
  · refine ⟨le_rfl, ?_, ?_⟩
    · rw [hx, mul_div_cancel_left₀ _ (ne_of_gt hs)]; push_cast; linarith
    · rw [hx, mul_div_cancel_left₀ _ (ne_of_gt hs)]; push_cast; linarith

/-- A rounded and clamped number is within half of any number that leaves the range by at most half. -/
theorem clamp_near {rnd : ℝ → Int} (hr : IsNearest rnd) (lo hi z : Int) (hlh : lo ≤ hi) (x : ℝ) (h1 : (lo : ℝ) - 1 / 2 ≤ x + z)
    (h2 : x + z ≤ (hi : ℝ) + 1 / 2) :
    |((max lo (min hi (rnd x + z)) : Int) : ℝ) - (x + z)| ≤ 1 / 2 := by
  have h := abs_le.1 (hr x)
  rw [abs_le]
  rcases le_total (rnd x + z) hi with g | g
  · rcases le_total lo (rnd x + z) with g' | g'
    · rw [min_eq_right g, max_eq_right g']; push_cast; constructor <;> linarith
    · rw [min_eq_right g, max_eq_left g']
      have : ((rnd x : ℝ)) + z ≤ lo := by exact_mod_cast g'
      constructor <;> linarith
  · have g2 : (hi : ℝ) ≤ rnd x + z := by exact_mod_cast g
    rw [min_eq_left g, max_eq_right hlh]
    constructor <;> linarith

end QScalarAux

namespace QScalarAux

theorem add_zero_params (rndT : ℝ → Int) (hT : IsNearest rndT) (a : Q) (hz : InU8 a.zp) : addScalar rndT 0 a = a := by
  have h0 : rndT (0 / a.scale) = 0 := by
    have := nearest_int hT 0
    simpa using this
  obtain ⟨z1, z2⟩ := hz
  unfold addScalar
  simp only [h0]
  rw [if_neg (by omega), if_neg (by omega)]
  simp

theorem add_zp (rndT : ℝ → Int) (c : ℝ) (a : Q) : InU8 (addScalar rndT c a).zp := by
  unfold addScalar
  simp only
  split_ifs with g1 g2
  · simp [InU8]
  · simp [InU8]
  · constructor <;> simp only <;> omega

/-- PyTorch's own sum, against the exact one: half a step of the input for rounding the scalar, half a step of the output for
requantizing. -/
theorem add_torch_near (rndT : ℝ → Int) (hT : IsNearest rndT) (c : ℝ) (a : Q) (hs : 0 < a.scale) (hq : InU8 a.q) :
    |(addScalar rndT c a).value - (a.value + c)| < (addScalar rndT c a).scale * (3 / 2) := by
  obtain ⟨q1, q2⟩ := hq
  have q1' : (0 : ℝ) ≤ a.q := by exact_mod_cast q1
  have q2' : (a.q : ℝ) ≤ 255 := by exact_mod_cast q2
  have hc := abs_le.1 (hT (c / a.scale))
  have hp := (add_params rndT hT c a hs ⟨q1, q2⟩).1
  set cq := rndT (c / a.scale) with hcq
  have hx : a.value + c = a.scale * ((a.q : ℝ) - a.zp + c / a.scale) := by
    simp only [Q.value, dequant]; field_simp
  -- the distance of the scalar from its rounding
  have hd : |a.scale * ((a.q : ℝ) - a.zp + cq) - (a.value + c)| ≤ a.scale / 2 := by
    rw [hx, ← mul_sub, abs_mul, abs_of_pos hs]
    have : |(a.q : ℝ) - a.zp + cq - ((a.q : ℝ) - a.zp + c / a.scale)| ≤ 1 / 2 := by
      rw [abs_le]; constructor <;> linarith
    nlinarith
  -- requantizing
  have hreq : ∀ (S : ℝ) (Z : Int), 0 < S →
      (0 : ℝ) - 1 / 2 ≤ ((a.q - a.zp + cq : Int) : ℝ) * (a.scale / S) + Z →
      ((a.q - a.zp + cq : Int) : ℝ) * (a.scale / S) + Z ≤ 255 + 1 / 2 →
      |dequant S Z (max 0 (min 255 (rndT (((a.q - a.zp + cq : Int) : ℝ) * (a.scale / S)) + Z)))
        - a.scale * ((a.q : ℝ) - a.zp + cq)| ≤ S / 2 := by
    intro S Z hS l1 l2
    have := clamp_near hT 0 255 Z (by omega) (((a.q - a.zp + cq : Int) : ℝ) * (a.scale / S))
      (by push_cast at l1 ⊢; linarith) (by push_cast at l2 ⊢; linarith)
    have e : dequant S Z (max 0 (min 255 (rndT (((a.q - a.zp + cq : Int) : ℝ) * (a.scale / S)) + Z)))
        - a.scale * ((a.q : ℝ) - a.zp + cq)
        = S * (((max 0 (min 255 (rndT (((a.q - a.zp + cq : Int) : ℝ) * (a.scale / S)) + Z)) : Int) : ℝ)
          - (((a.q - a.zp + cq : Int) : ℝ) * (a.scale / S) + Z)) := by
      simp only [dequant]
      push_cast
      field_simp
      ring
    rw [e, abs_mul, abs_of_pos hS]
    nlinarith
  unfold addScalar at hp ⊢
  simp only [← hcq] at hp ⊢
  split_ifs at hp ⊢ with g1 g2
  · have g1' : ((a.zp - cq : Int) : ℝ) ≤ -1 := by exact_mod_cast (by omega : a.zp - cq ≤ -1)
    push_cast at g1'
    have hk : 0 < (255 - ((a.zp - cq : Int) : ℝ)) / 255 * a.scale := by push_cast; apply mul_pos _ hs; linarith
    simp only at hp ⊢
    have := hreq _ 0 hk (by
        have : 0 ≤ ((a.q - a.zp + cq : Int) : ℝ) * (a.scale / ((255 - ((a.zp - cq : Int) : ℝ)) / 255 * a.scale)) := by
          apply mul_nonneg
          · push_cast; linarith
          · exact div_nonneg (le_of_lt hs) (le_of_lt hk)
        push_cast at this ⊢; linarith) (by
        have : ((a.q - a.zp + cq : Int) : ℝ) * (a.scale / ((255 - ((a.zp - cq : Int) : ℝ)) / 255 * a.scale)) ≤ 255 := by
          rw [← mul_div_assoc, div_le_iff₀ hk]
          push_cast
          have : 255 * ((255 - ((a.zp : ℝ) - cq)) / 255 * a.scale) = (255 - ((a.zp : ℝ) - cq)) * a.scale := by ring
          rw [this]
          apply mul_le_mul_of_nonneg_right _ (le_of_lt hs)
          linarith
        push_cast at this ⊢; linarith)
    have t := abs_sub_le (dequant ((255 - ((a.zp - cq : Int) : ℝ)) / 255 * a.scale) 0
      (max 0 (min 255 (rndT (((a.q - a.zp + cq : Int) : ℝ) * (a.scale / ((255 - ((a.zp - cq : Int) : ℝ)) / 255 * a.scale))) + 0))))
      (a.scale * ((a.q : ℝ) - a.zp + cq)) (a.value + c)
    simp only [Q.value] at t this ⊢
    simp only [Q.value] at hd
    linarith
  · have g2' : 256 ≤ ((a.zp - cq : Int) : ℝ) := by exact_mod_cast (by omega : 256 ≤ a.zp - cq)
    push_cast at g2'
    have hk : 0 < (((a.zp - cq : Int) : ℝ) - 0) / 255 * a.scale := by push_cast; apply mul_pos _ hs; linarith
    simp only at hp ⊢
    have := hreq _ 255 hk (by
        have : -255 ≤ ((a.q - a.zp + cq : Int) : ℝ) * (a.scale / ((((a.zp - cq : Int) : ℝ) - 0) / 255 * a.scale)) := by
          rw [← mul_div_assoc, le_div_iff₀ hk]
          push_cast
          have : -255 * (((a.zp : ℝ) - cq - 0) / 255 * a.scale) = (-((a.zp : ℝ) - cq)) * a.scale := by ring
          rw [this]
          apply mul_le_mul_of_nonneg_right _ (le_of_lt hs)
          linarith
        push_cast at this ⊢; linarith) (by
        have : ((a.q - a.zp + cq : Int) : ℝ) * (a.scale / ((((a.zp - cq : Int) : ℝ) - 0) / 255 * a.scale)) ≤ 0 := by
          apply mul_nonpos_of_nonpos_of_nonneg
          · push_cast; linarith
          · exact div_nonneg (le_of_lt hs) (le_of_lt hk)
        push_cast at this ⊢; linarith)
    have t := abs_sub_le (dequant ((((a.zp - cq : Int) : ℝ) - 0) / 255 * a.scale) 255
      (max 0 (min 255 (rndT (((a.q - a.zp + cq : Int) : ℝ) * (a.scale / ((((a.zp - cq : Int) : ℝ) - 0) / 255 * a.scale))) + 255))))
      (a.scale * ((a.q : ℝ) - a.zp + cq)) (a.value + c)
    simp only [Q.value] at t this ⊢
    simp only [Q.value] at hd
    have h3 : a.scale < (((a.zp - cq : Int) : ℝ) - 0) / 255 * a.scale := by
      push_cast
      have : (1 : ℝ) < (((a.zp : ℝ) - cq) - 0) / 255 := by linarith
      nlinarith
    linarith
  · have : (⟨a.q, a.scale, a.zp - cq⟩ : Q).value = a.scale * ((a.q : ℝ) - a.zp + cq) := by
      simp only [Q.value, dequant]; push_cast; ring
    rw [this]
    linarith

end QScalarAux

/-- **C76, addition.** For every scalar, scale, zero point and stored value, and every way of breaking ties: the converted result
is stored with PyTorch's output scale and zero point and stands for the exact sum to within half a step. (PyTorch's own result
rounds the scalar to the input's scale first.) Partial: 16-bit storage and the kernels' fixed-point multipliers are missing. -/
theorem C76_add_partial (rndT rnd : ℝ → Int) (hT : IsNearest rndT) (hr : IsNearest rnd) (qt : QType) (hqt : qt ≠ .i16)
    (c : ℝ) (a : Q) (hs : 0 < a.scale) (hq : InU8 a.q) (hz : InU8 a.zp) :
    ∃ r, addConvert rndT rnd qt false c a = some r ∧ r.scale = (addScalar rndT c a).scale ∧
      r.zp = (store qt (addScalar rndT c a)).zp ∧ |value r - (a.value + c)| ≤ r.scale / 2 := by
  obtain ⟨d, ha, hrange, hall⟩ := store_eq qt hqt a hq
  obtain ⟨e1, e2, e3⟩ := hall (addScalar rndT c a)
  unfold addConvert
  simp only [Bool.false_eq_true, if_false]
  by_cases h0 : c = 0
  · rw [if_pos h0]
    subst h0
    refine ⟨_, rfl, e1, rfl, ?_⟩
    rw [add_zero_params rndT hT a hz]
    have hv := value_store qt hqt a hq
    simp only [hv, add_zero, sub_self, abs_zero]
    have : (store qt a).scale = a.scale := by rw [ha]
    rw [this]; linarith
  · rw [if_neg h0]
    obtain ⟨b, hb, hbv⟩ := C46_scalar_exact rndT hT qt true c
    have hb' : value b = c := hbv
    rw [hb]
    refine ⟨_, rfl, e1, rfl, ?_⟩
    obtain ⟨p1, p2, p3⟩ := add_params rndT hT c a hs hq
    simp only [hb', value_store qt hqt a hq, e1, e2]
    set S := (addScalar rndT c a).scale with hS
    set Z := (addScalar rndT c a).zp with hZ
    have hSpos : 0 < S := lt_of_lt_of_le hs p1
    have hk := clamp_near hr (qrange qt).1 (qrange qt).2 (Z - d) (by rw [hrange]; omega) ((a.value + c) / S)
      (by rw [hrange]; push_cast; linarith) (by rw [hrange]; push_cast; linarith)
    have : value ⟨kernel rnd qt false S (Z - d) (a.value + c), S, Z - d⟩ - (a.value + c)
        = S * ((((max (qrange qt).1 (min (qrange qt).2 (rnd ((a.value + c) / S) + (Z - d))) : Int)) : ℝ)
            - ((a.value + c) / S + (Z - d : Int))) := by
      simp only [value, dequant, kernel, Bool.false_eq_true, if_false]
      field_simp
      ring
    rw [this, abs_mul, abs_of_pos hSpos]
    nlinarith

/-- 1 plus the element 40 with scale 1/10 and zero point 0 (value 4): the zero point stays a byte only by growing the scale. -/
example : ∃ r, addConvert (fun x => round x) (fun x => round x) .u8 false 1 ⟨40, 1 / 10, 0⟩ = some r ∧
    |value r - 5| ≤ r.scale / 2 := by
  obtain ⟨r, h1, -, -, h2⟩ := C76_add_partial _ _ exists_nearest exists_nearest .u8 (by simp) 1
    ⟨40, 1 / 10, 0⟩ (by norm_num) (by simp [InU8]) (by simp [InU8])
  refine ⟨r, h1, ?_⟩
  have : (⟨40, 1 / 10, 0⟩ : Q).value + 1 = 5 := by simp [Q.value, dequant]; norm_num
  rwa [this] at h2

/-- **C76, addition against PyTorch.** The stored integer differs from the one PyTorch stores by at most one. -/
theorem C76_add_torch_partial (rndT rnd : ℝ → Int) (hT : IsNearest rndT) (hr : IsNearest rnd) (qt : QType) (hqt : qt ≠ .i16)
    (c : ℝ) (a : Q) (hs : 0 < a.scale) (hq : InU8 a.q) (hz : InU8 a.zp) :
    ∃ r, addConvert rndT rnd qt false c a = some r ∧ |r.q - (store qt (addScalar rndT c a)).q| ≤ 1 := by
  obtain ⟨r, h1, h2, h3, h4⟩ := C76_add_partial rndT rnd hT hr qt hqt c a hs hq hz
  refine ⟨r, h1, ?_⟩
  have hin : InU8 (addScalar rndT c a).q := by
    unfold addScalar
    simp only
    split_ifs
    · constructor <;> simp only <;> omega
    · constructor <;> simp only <;> omega
    · exact hq
  have ht := add_torch_near rndT hT c a hs hq
  rw [← value_store qt hqt _ hin] at ht
  have hSpos : 0 < (addScalar rndT c a).scale := lt_of_lt_of_le hs (add_params rndT hT c a hs hq).1
  obtain ⟨d, -, -, hall⟩ := store_eq qt hqt a hq
  have e1 := (hall (addScalar rndT c a)).1
  have hdiff : value r - value (store qt (addScalar rndT c a))
      = (addScalar rndT c a).scale * ((r.q - (store qt (addScalar rndT c a)).q : Int) : ℝ) := by
    simp only [value, dequant, h2, h3, e1]; push_cast; ring
  have hlt : |value r - value (store qt (addScalar rndT c a))| < (addScalar rndT c a).scale * 2 := by
    have := abs_sub_le (value r) (a.value + c) (value (store qt (addScalar rndT c a)))
    rw [abs_sub_comm (a.value + c)] at this
    rw [h2] at h4
    linarith
  rw [hdiff, abs_mul, abs_of_pos hSpos] at hlt
  have : |((r.q - (store qt (addScalar rndT c a)).q : Int) : ℝ)| < 2 := lt_of_mul_lt_mul_left hlt (le_of_lt hSpos)
  have : |r.q - (store qt (addScalar rndT c a)).q| < 2 := by exact_mod_cast this
  omega

example : IsNearest (fun x : ℝ => round x) ∧ InU8 40 ∧ InU8 0 := ⟨exists_nearest, by simp [InU8], by simp [InU8]⟩

/-- **C76, addition with a fused ReLU.** The result is the positive part of the result without it. -/
theorem C76_add_relu (rndT rnd : ℝ → Int) (hT : IsNearest rndT) (hr : IsNearest rnd) (qt : QType) (hqt : qt ≠ .i16)
    (c : ℝ) (a : Q) (hs : 0 < a.scale) (hq : InU8 a.q) (hz : InU8 a.zp) :
    ∃ r0 r, addConvert rndT rnd qt false c a = some r0 ∧ addConvert rndT rnd qt true c a = some r ∧
      value r = max 0 (value r0) := by
  obtain ⟨d, ha, hrange, hall⟩ := store_eq qt hqt a hq
  obtain ⟨e1, e2, -⟩ := hall (addScalar rndT c a)
  obtain ⟨f1', f2', -⟩ := hall (relu (addScalar rndT c a))
  have f1 : (store qt (relu (addScalar rndT c a))).scale = (addScalar rndT c a).scale := f1'
  have f2 : (store qt (relu (addScalar rndT c a))).zp = (addScalar rndT c a).zp - d := f2'
  have hSpos : 0 < (addScalar rndT c a).scale := lt_of_lt_of_le hs (add_params rndT hT c a hs hq).1
  obtain ⟨z1, z2⟩ := add_zp rndT c a
  -- clamping at the zero point is taking the positive part
  have hpos : ∀ (S : ℝ) (Z k : Int), 0 < S → dequant S Z (max k Z) = max 0 (dequant S Z k) := by
    intro S Z k hS
    unfold dequant
    rcases le_total k Z with g | g
    · rw [max_eq_right g, max_eq_left]
      · simp
      · apply mul_nonpos_of_nonneg_of_nonpos (le_of_lt hS)
        have : (k : ℝ) ≤ Z := by exact_mod_cast g
        linarith
    · rw [max_eq_left g, max_eq_right]
      apply mul_nonneg (le_of_lt hS)
      have : (Z : ℝ) ≤ k := by exact_mod_cast g
      linarith
  have hker : ∀ x, kernel rnd qt true (addScalar rndT c a).scale ((addScalar rndT c a).zp - d) x
      = max (kernel rnd qt false (addScalar rndT c a).scale ((addScalar rndT c a).zp - d) x)
        ((addScalar rndT c a).zp - d) := by
    intro x
    unfold kernel
    rw [hrange]
    simp only [if_true, Bool.false_eq_true, if_false]
    omega
  unfold addConvert
  simp only [Bool.false_eq_true, if_false, if_true]
  by_cases h0 : c = 0
  · simp only [if_pos h0]
    refine ⟨_, _, rfl, rfl, ?_⟩
    subst h0
    simp only [f1, f2, hker, e1, e2, value]
    rw [hpos _ _ _ hSpos]
    congr 2
    rw [add_zero_params rndT hT a hz]
    have hx : dequant (store qt a).scale (store qt a).zp (store qt a).q / a.scale = ((a.q - a.zp : Int) : ℝ) := by
      have : dequant (store qt a).scale (store qt a).zp (store qt a).q = a.value := value_store qt hqt a hq
      rw [this, div_eq_iff (ne_of_gt hs)]; simp only [Q.value, dequant]; push_cast; ring
    unfold kernel
    rw [hx, nearest_int hr, hrange, ha]
    obtain ⟨q1, q2⟩ := hq
    simp only [Bool.false_eq_true, if_false]
    omega
  · simp only [if_neg h0]
    obtain ⟨b, hb, -⟩ := C46_scalar_exact rndT hT qt true c
    rw [hb]
    refine ⟨_, _, rfl, rfl, ?_⟩
    simp only [f1, f2, hker, e1, e2, value]
    exact hpos _ _ _ hSpos

example : (relu ⟨3, 1, 10⟩ : Q).value = 0 ∧ (⟨3, 1, 10⟩ : Q).value = -7 := by
  constructor <;> simp [relu, Q.value, dequant] <;> norm_num

end Verif.Props
