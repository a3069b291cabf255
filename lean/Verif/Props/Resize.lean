import Verif.Model.Resize
import Verif.Lemmas.Tensor
import Mathlib.Tactic.Linarith
import Mathlib.Tactic.Ring
import Mathlib.Tactic.FieldSimp

/-! C60: resizing. -/

namespace Verif.Props
open Verif.Spec Verif.Model Verif.Lemmas

/-- The factor gives a whole output size, or the size is given: then PyTorch's step is the ratio of the sizes. -/
def ExactSize (n : Nat) : AxisSize → Prop
  | .size _ => True
  | .factor f => 0 < f ∧ 0 < n ∧ ∃ k : ℕ, (n : ℚ) * f = k

theorem outputSize_out (n : Nat) (z : AxisSize) : outputSize n z = z.out n := by cases z <;> rfl

theorem exact_step {n : Nat} {z : AxisSize} (h : ExactSize n z) : z.step n = (n : ℚ) / z.out n := by
  cases z with
  | size o => rfl
  | factor f =>
    obtain ⟨hf, hn, k, hk⟩ := h
    have hfl : AxisSize.out n (.factor f) = k := by
      simp only [AxisSize.out, hk, Int.floor_natCast, Int.toNat_natCast]
    rw [hfl]
    simp only [AxisSize.step]
    have hn' : (n : ℚ) ≠ 0 := by positivity
    rw [← hk]
    field_simp

private theorem idx4 {s idx : List Nat} {a b c d : Nat} (hs : s = [a, b, c, d]) (h : InBounds s idx) : ∃ i j k l, idx = [i, j, k, l] ∧ i < a ∧ j < b ∧ k < c ∧ l < d := by
  subst hs
  cases h with
  | cons h1 h => cases h with
    | cons h2 h => cases h with
      | cons h3 h => cases h with
        | cons h4 h => cases h; exact ⟨_, _, _, _, rfl, h1, h2, h3, h4⟩

private theorem nhwc_shape {α : Type} (t : Tensor α) (n c h w : Nat) (ht : t.shape = [n, c, h, w]) : (transpose [0, 2, 3, 1] t).shape = [n, h, w, c] := by
  simp [transpose, ht]

private theorem nhwc_get {α : Type} (t : Tensor α) (n c h w : Nat) (ht : t.shape = [n, c, h, w]) (i y x k : Nat) : (transpose [0, 2, 3, 1] t).get [i, y, x, k] = t.get [i, k, y, x] := by
  simp [transpose, ht, List.range_succ, List.idxOf_cons]

private theorem nchw_get {α : Type} (t : Tensor α) (n c h w : Nat) (ht : t.shape = [n, h, w, c]) (i y x k : Nat) : (transpose [0, 3, 1, 2] t).get [i, k, y, x] = t.get [i, y, x, k] := by
  simp [transpose, ht, List.range_succ, List.idxOf_cons]

private theorem nearest_eq {α : Type} (h w : AxisSize) (t : Tensor α) (n c hh ww : Nat) (ht : t.shape = [n, c, hh, ww]) (eh : h.step hh = (hh : ℚ) / h.out hh)
    (ew : w.step ww = (ww : ℚ) / w.out ww) : Same (convertNearest h w t) (nearestTorch h w t) := by
  have hs := nhwc_shape t n c hh ww ht
  have hr : (nearestTfl (h.out hh) (w.out ww) (transpose [0, 2, 3, 1] t)).shape = [n, h.out hh, w.out ww, c] := by simp [nearestTfl, hs]
  unfold convertNearest
  simp only [outputSize_out, ht, List.getD_cons_zero, List.getD_cons_succ]
  have hsh : (transpose [0, 3, 1, 2] (nearestTfl (h.out hh) (w.out ww) (transpose [0, 2, 3, 1] t))).shape = [n, c, h.out hh, w.out ww] := by simp [transpose, nearestTfl, ht]
  refine ⟨by rw [hsh]; simp [nearestTorch, ht], fun idx hb => ?_⟩
  obtain ⟨i, k, y, x, rfl, -, -, -, -⟩ := idx4 hsh hb
  rw [nchw_get _ n c _ _ hr]
  simp only [nearestTfl, nearestTorch, hs, ht, List.getD_cons_zero, List.getD_cons_succ]
  rw [nhwc_get t n c hh ww ht, eh, ew]

/-- C60 for nearest-neighbour resizing to a given size: every output pixel reads the source pixel PyTorch reads. -/
theorem C60_nearest_size {α : Type} (oh ow : Nat) (t : Tensor α) (n c h w : Nat) (ht : t.shape = [n, c, h, w]) :
    Same (convertNearest (.size oh) (.size ow) t) (nearestTorch (.size oh) (.size ow) t) := nearest_eq _ _ t n c h w ht rfl rfl

/-- C60 for nearest-neighbour resizing by factors, when the resulting sizes are whole. -/
theorem C60_nearest_factor_partial {α : Type} (fh fw : ℚ) (t : Tensor α) (n c h w : Nat) (ht : t.shape = [n, c, h, w]) (eh : ExactSize h (.factor fh)) (ew : ExactSize w (.factor fw)) :
    Same (convertNearest (.factor fh) (.factor fw) t) (nearestTorch (.factor fh) (.factor fw) t) := nearest_eq _ _ t n c h w ht (exact_step eh) (exact_step ew)

/-- A factor of 5/4 on 8 pixels gives 10. -/
example : ExactSize 8 (.factor (5 / 4)) ∧ AxisSize.out 8 (.factor (5 / 4)) = 10 := by
  have h : ((8 : ℕ) : ℚ) * (5 / 4) = (10 : ℕ) := by norm_num
  refine ⟨⟨by norm_num, by norm_num, 10, h⟩, ?_⟩
  simp only [AxisSize.out, h, Int.floor_natCast, Int.toNat_natCast]

/-- C60 fails for factors in general: 10 pixels resized by 5/4 give 12; output pixel 6 is source pixel 4 in PyTorch and 5 after conversion. -/
theorem C60_nearest_factor_false : ∃ t : Tensor ℕ, t.shape = [1, 1, 1, 10] ∧ (nearestTorch (.factor 1) (.factor (5 / 4)) t).shape = [1, 1, 1, 12] ∧
    (nearestTorch (.factor 1) (.factor (5 / 4)) t).get [0, 0, 0, 6] = 4 ∧ (convertNearest (.factor 1) (.factor (5 / 4)) t).get [0, 0, 0, 6] = 5 := by
  have o1 : AxisSize.out 1 (.factor 1) = 1 := by simp [AxisSize.out]
  have o2 : AxisSize.out 10 (.factor (5 / 4)) = 12 := by
    have : ⌊((10 : ℕ) : ℚ) * (5 / 4)⌋ = 12 := by rw [Int.floor_eq_iff]; norm_num
    simp only [AxisSize.out, this]; rfl
  refine ⟨⟨[1, 1, 1, 10], fun i => i.getD 3 0⟩, rfl, ?_, ?_, ?_⟩
  · simp [nearestTorch, o1, o2]
  · have : ⌊((6 : ℕ) : ℚ) * (1 / (5 / 4))⌋ = 4 := by rw [Int.floor_eq_iff]; norm_num
    simp only [nearestTorch, AxisSize.step, List.getD_cons_zero, List.getD_cons_succ, this]
    rfl
  · unfold convertNearest
    simp only [outputSize_out, List.getD_cons_zero, List.getD_cons_succ, o1, o2]
    rw [nchw_get _ 1 1 1 12 (by simp [nearestTfl, transpose])]
    simp only [nearestTfl]
    rw [nhwc_get _ 1 1 1 10 rfl]
    have : ⌊((6 : ℕ) : ℚ) * (((10 : ℕ) : ℚ) / (12 : ℕ))⌋ = 5 := by rw [Int.floor_eq_iff]; norm_num
    have hs := nhwc_shape (⟨[1, 1, 1, 10], fun i => i.getD 3 0⟩ : Tensor ℕ) 1 1 1 10 rfl
    simp only [hs, List.getD_cons_zero, List.getD_cons_succ, this]
    rfl

/-- The value between two neighbouring pixels of an axis, at position `v`. -/
private def between (n : Nat) (v : ℚ) (g : Nat → ℚ) : ℚ :=
  (1 - (v - ⌊v⌋)) * g ⌊v⌋.toNat + (v - ⌊v⌋) * g (min (⌊v⌋.toNat + 1) (n - 1))

private theorem tfl_value (n : Nat) (v : ℚ) (g : Nat → ℚ) (hn : 0 < n) (hv : -1 < v) (hv2 : v < n) :
    (⟨(max ⌊v⌋ 0).toNat, (min ⌈v⌉ ((n : ℤ) - 1)).toNat, v - (max ⌊v⌋ 0 : ℤ)⟩ : Lerp).value g = if v < 0 then g 0 else between n v g := by
  unfold Lerp.value
  dsimp only
  split
  · next h =>
    have h1 : ⌊v⌋ < 0 := by rw [Int.floor_lt]; exact_mod_cast h
    have h2 : ⌈v⌉ = 0 := by rw [Int.ceil_eq_iff]; constructor <;> push_cast <;> linarith
    have e1 : (max ⌊v⌋ 0) = 0 := by omega
    have e2 : (min ⌈v⌉ ((n : ℤ) - 1)).toNat = 0 := by omega
    rw [e1, e2]
    push_cast
    ring
  · next h =>
    push Not at h
    have h1 : 0 ≤ ⌊v⌋ := Int.floor_nonneg.2 h
    have h2 : ⌊v⌋ ≤ (n : ℤ) - 1 := by
      have : ⌊v⌋ < n := by rw [Int.floor_lt]; exact_mod_cast hv2
      omega
    have e1 : (max ⌊v⌋ 0) = ⌊v⌋ := by omega
    rw [e1]
    unfold between
    by_cases hi : v = ⌊v⌋
    · have : v - ⌊v⌋ = 0 := by linarith
      simp [this]
    · have hc : ⌈v⌉ = ⌊v⌋ + 1 := by
        rw [Int.ceil_eq_iff]
        have hl := Int.floor_le v
        have hu := Int.lt_floor_add_one v
        push_cast
        refine ⟨?_, by linarith⟩
        have : (⌊v⌋ : ℚ) < v := lt_of_le_of_ne hl (Ne.symm hi)
        linarith
      have e2 : (min ⌈v⌉ ((n : ℤ) - 1)).toNat = min (⌊v⌋.toNat + 1) (n - 1) := by rw [hc]; omega
      rw [e2]

private theorem torch_value (n : Nat) (v : ℚ) (g : Nat → ℚ) (hn : 0 < n) (hv : 0 ≤ v) (hv2 : v < n) :
    (⟨min ⌊v⌋.toNat (n - 1), min ⌊v⌋.toNat (n - 1) + (if min ⌊v⌋.toNat (n - 1) < n - 1 then 1 else 0), min (max (v - (min ⌊v⌋.toNat (n - 1) : ℕ)) 0) 1⟩ : Lerp).value g =
      between n v g := by
  have h1 : 0 ≤ ⌊v⌋ := Int.floor_nonneg.2 hv
  have h2 : ⌊v⌋ < n := by rw [Int.floor_lt]; exact_mod_cast hv2
  have e : min ⌊v⌋.toNat (n - 1) = ⌊v⌋.toNat := by omega
  have hl := Int.floor_le v
  have hu := Int.lt_floor_add_one v
  have ec : ((⌊v⌋.toNat : ℕ) : ℚ) = ⌊v⌋ := by
    have : ((⌊v⌋.toNat : ℕ) : ℤ) = ⌊v⌋ := Int.toNat_of_nonneg h1
    exact_mod_cast this
  unfold Lerp.value between
  dsimp only
  rw [e, ec, max_eq_left (by linarith), min_eq_left (by linarith)]
  have e3 : ⌊v⌋.toNat + (if ⌊v⌋.toNat < n - 1 then 1 else 0) = min (⌊v⌋.toNat + 1) (n - 1) := by
    split <;> omega
  rw [e3]

/-- Along one axis, TFLite's interpolation is PyTorch's, for every pixel of the output. -/
theorem lerp_eq (align : Bool) (z : AxisSize) (n i : Nat) (g : Nat → ℚ) (hn : 0 < n) (hi : i < z.out n) (hz : z.step n = (n : ℚ) / z.out n) :
    (lerpTfl align (!align) n (z.out n) i).value g = (lerpTorch align z n i).value g := by
  obtain ⟨o, ho⟩ : ∃ o, o = z.out n := ⟨_, rfl⟩
  rw [← ho] at hi hz
  have ho0 : (0 : ℚ) < o := by exact_mod_cast (show 0 < o by omega)
  have hnq : (1 : ℚ) ≤ n := by exact_mod_cast hn
  have hiq : (i : ℚ) + 1 ≤ o := by exact_mod_cast hi
  have hi0 : (0 : ℚ) ≤ i := by positivity
  -- the position TFLite uses
  obtain ⟨v, hv⟩ : ∃ v : ℚ, v = if (!align) = true then ((i : ℚ) + 1 / 2) * (if align = true ∧ 1 < o then ((n : ℚ) - 1) / ((o : ℚ) - 1) else (n : ℚ) / o) - 1 / 2
      else (i : ℚ) * (if align = true ∧ 1 < o then ((n : ℚ) - 1) / ((o : ℚ) - 1) else (n : ℚ) / o) := ⟨_, rfl⟩
  have hT : lerpTfl align (!align) n o i = ⟨(max ⌊v⌋ 0).toNat, (min ⌈v⌉ ((n : ℤ) - 1)).toNat, v - (max ⌊v⌋ 0 : ℤ)⟩ := by
    unfold lerpTfl
    dsimp only
    rw [← hv]
  have hbounds : -1 < v ∧ v < n := by
    rw [hv]
    cases align with
    | false =>
      simp only [Bool.not_false, if_true, Bool.false_eq_true, false_and, if_false]
      have h1 : 0 < (n : ℚ) / o := by positivity
      have h2 : ((i : ℚ) + 1 / 2) * ((n : ℚ) / o) ≤ (o : ℚ) * ((n : ℚ) / o) := mul_le_mul_of_nonneg_right (by linarith) h1.le
      have h3 : (o : ℚ) * ((n : ℚ) / o) = n := by field_simp
      have h4 : 0 ≤ ((i : ℚ) + 1 / 2) * ((n : ℚ) / o) := by positivity
      exact ⟨by linarith, by linarith⟩
    | true =>
      simp only [Bool.not_true, Bool.false_eq_true, if_false, true_and]
      by_cases h1o : 1 < o
      · rw [if_pos h1o]
        have ho1 : (0 : ℚ) < (o : ℚ) - 1 := by
          have : (1 : ℚ) < o := by exact_mod_cast h1o
          linarith
        have h1 : 0 ≤ ((n : ℚ) - 1) / ((o : ℚ) - 1) := div_nonneg (by linarith) ho1.le
        have h2 : (i : ℚ) * (((n : ℚ) - 1) / ((o : ℚ) - 1)) ≤ ((o : ℚ) - 1) * (((n : ℚ) - 1) / ((o : ℚ) - 1)) := mul_le_mul_of_nonneg_right (by linarith) h1
        have h3 : ((o : ℚ) - 1) * (((n : ℚ) - 1) / ((o : ℚ) - 1)) = n - 1 := by field_simp
        have h4 : 0 ≤ (i : ℚ) * (((n : ℚ) - 1) / ((o : ℚ) - 1)) := mul_nonneg hi0 h1
        exact ⟨by linarith, by linarith⟩
      · rw [if_neg h1o]
        have : i = 0 := by omega
        subst this
        simp only [Nat.cast_zero, zero_mul]
        exact ⟨by linarith, by linarith⟩
  rw [← ho, hT, tfl_value n v g hn hbounds.1 hbounds.2]
  unfold lerpTorch
  dsimp only
  rw [← ho]
  by_cases hon : o = n
  · rw [if_pos hon]
    have hvi : v = i := by
      rw [hv]
      subst hon
      cases align with
      | false =>
        simp only [Bool.not_false, if_true, Bool.false_eq_true, false_and, if_false]
        rw [div_self ho0.ne']; ring
      | true =>
        simp only [Bool.not_true, Bool.false_eq_true, if_false, true_and]
        split
        · next h =>
          have ho1 : (o : ℚ) - 1 ≠ 0 := by
            have : (1 : ℚ) < o := by exact_mod_cast h
            linarith
          rw [div_self ho1]; ring
        · rw [div_self ho0.ne']; ring
    rw [hvi, if_neg (by linarith)]
    simp [between, Lerp.value]
  · rw [if_neg hon]
    obtain ⟨s, hs⟩ : ∃ s : ℚ, s = if align = true then (if 1 < o then (i : ℚ) * (((n : ℚ) - 1) / ((o : ℚ) - 1)) else 0)
      else max 0 (((i : ℚ) + 1 / 2) * z.step n - 1 / 2) := ⟨_, rfl⟩
    rw [← hs]
    have hsv : s = max 0 v := by
      rw [hs, hv]
      cases align with
      | false =>
        simp only [Bool.false_eq_true, if_false, Bool.not_false, if_true, false_and, hz]
      | true =>
        simp only [if_true, Bool.not_true, Bool.false_eq_true, if_false, true_and]
        split
        · next h =>
          have ho1 : (0 : ℚ) < (o : ℚ) - 1 := by
            have : (1 : ℚ) < o := by exact_mod_cast h
            linarith
          rw [max_eq_right]
          exact mul_nonneg hi0 (div_nonneg (by linarith) ho1.le)
        · have : i = 0 := by omega
          subst this
          simp
    have hs0 : 0 ≤ s := by rw [hsv]; exact le_max_left _ _
    have hs1 : s < n := by rw [hsv]; exact max_lt (by linarith) hbounds.2
    rw [torch_value n s g hn hs0 hs1]
    split
    · next h =>
      have : s = 0 := by rw [hsv, max_eq_left h.le]
      rw [this]
      simp [between]
    · next h =>
      have : s = v := by rw [hsv, max_eq_right (by linarith)]
      rw [this]

private theorem bilinear_eq (align : Bool) (h w : AxisSize) (t : Tensor ℚ) (n c hh ww : Nat) (ht : t.shape = [n, c, hh, ww]) (h0 : 0 < hh) (w0 : 0 < ww)
    (eh : h.step hh = (hh : ℚ) / h.out hh) (ew : w.step ww = (ww : ℚ) / w.out ww) : Same (convertBilinear align h w t) (bilinearTorch align h w t) := by
  have hs := nhwc_shape t n c hh ww ht
  have hr : (bilinearTfl align (!align) (h.out hh) (w.out ww) (transpose [0, 2, 3, 1] t)).shape = [n, h.out hh, w.out ww, c] := by simp [bilinearTfl, hs]
  unfold convertBilinear
  simp only [outputSize_out, ht, List.getD_cons_zero, List.getD_cons_succ]
  have hsh : (transpose [0, 3, 1, 2] (bilinearTfl align (!align) (h.out hh) (w.out ww) (transpose [0, 2, 3, 1] t))).shape = [n, c, h.out hh, w.out ww] := by
    simp [transpose, bilinearTfl, ht]
  refine ⟨by rw [hsh]; simp [bilinearTorch, ht], fun idx hb => ?_⟩
  obtain ⟨i, k, y, x, rfl, -, -, hy, hx⟩ := idx4 hsh hb
  rw [nchw_get _ n c _ _ hr]
  simp only [bilinearTfl, bilinearTorch, hs, ht, List.getD_cons_zero, List.getD_cons_succ]
  rw [lerp_eq align h hh y _ h0 hy eh]
  congr 1
  funext y'
  rw [lerp_eq align w ww x _ w0 hx ew]
  congr 1
  funext x'
  exact nhwc_get t n c hh ww ht i y' x' k

/-- C60 for bilinear resizing to a given size, with and without aligned corners: every output pixel is the value PyTorch interpolates. -/
theorem C60_bilinear_size (align : Bool) (oh ow : Nat) (t : Tensor ℚ) (n c h w : Nat) (ht : t.shape = [n, c, h, w]) (h0 : 0 < h) (w0 : 0 < w) :
    Same (convertBilinear align (.size oh) (.size ow) t) (bilinearTorch align (.size oh) (.size ow) t) := bilinear_eq align _ _ t n c h w ht h0 w0 rfl rfl

/-- C60 for bilinear resizing by factors, when the resulting sizes are whole. -/
theorem C60_bilinear_factor_partial (align : Bool) (fh fw : ℚ) (t : Tensor ℚ) (n c h w : Nat) (ht : t.shape = [n, c, h, w]) (eh : ExactSize h (.factor fh))
    (ew : ExactSize w (.factor fw)) : Same (convertBilinear align (.factor fh) (.factor fw) t) (bilinearTorch align (.factor fh) (.factor fw) t) :=
  bilinear_eq align _ _ t n c h w ht eh.2.1 ew.2.1 (exact_step eh) (exact_step ew)

/-- C60 fails for bilinear resizing by factors in general: 10 pixels by 5/4, output pixel 6 of an image that counts its columns. -/
theorem C60_bilinear_factor_false : ∃ t : Tensor ℚ, t.shape = [1, 1, 1, 10] ∧ (bilinearTorch false (.factor 1) (.factor (5 / 4)) t).get [0, 0, 0, 6] ≠
    (convertBilinear false (.factor 1) (.factor (5 / 4)) t).get [0, 0, 0, 6] := by
  have o1 : AxisSize.out 1 (.factor 1) = 1 := by simp [AxisSize.out]
  have o2 : AxisSize.out 10 (.factor (5 / 4)) = 12 := by
    have : ⌊((10 : ℕ) : ℚ) * (5 / 4)⌋ = 12 := by rw [Int.floor_eq_iff]; norm_num
    simp only [AxisSize.out, this]; rfl
  refine ⟨⟨[1, 1, 1, 10], fun i => i.getD 3 0⟩, rfl, ?_⟩
  have e1 : (bilinearTorch false (.factor 1) (.factor (5 / 4)) ⟨[1, 1, 1, 10], fun i => i.getD 3 0⟩).get [0, 0, 0, 6] = 47 / 10 := by
    have hs : max (0 : ℚ) ((((6 : ℕ) : ℚ) + 1 / 2) * (1 / (5 / 4)) - 1 / 2) = 47 / 10 := by norm_num
    have hf : ⌊(47 / 10 : ℚ)⌋ = 4 := by rw [Int.floor_eq_iff]; norm_num
    simp only [bilinearTorch, lerpTorch, List.getD_cons_zero, List.getD_cons_succ, o1, o2, if_true, Lerp.value, AxisSize.step]
    norm_num [hf, show (Int.toNat 4) = 4 from rfl]
  have e2 : (convertBilinear false (.factor 1) (.factor (5 / 4)) ⟨[1, 1, 1, 10], fun i => i.getD 3 0⟩).get [0, 0, 0, 6] = 59 / 12 := by
    unfold convertBilinear
    simp only [outputSize_out, List.getD_cons_zero, List.getD_cons_succ, o1, o2]
    rw [nchw_get _ 1 1 1 12 (by simp [bilinearTfl, transpose])]
    have hs := nhwc_shape (⟨[1, 1, 1, 10], fun i => (i.getD 3 0 : ℚ)⟩ : Tensor ℚ) 1 1 1 10 rfl
    have hg := nhwc_get (⟨[1, 1, 1, 10], fun i => (i.getD 3 0 : ℚ)⟩ : Tensor ℚ) 1 1 1 10 rfl
    simp only [bilinearTfl, hs, List.getD_cons_zero, List.getD_cons_succ, Lerp.value]
    simp only [hg]
    have hf : ⌊(59 / 12 : ℚ)⌋ = 4 := by rw [Int.floor_eq_iff]; norm_num
    have hc : ⌈(59 / 12 : ℚ)⌉ = 5 := by rw [Int.ceil_eq_iff]; norm_num
    norm_num [lerpTfl, hf, hc, show (Int.toNat 4) = 4 from rfl, show (Int.toNat 5) = 5 from rfl]
  rw [e1, e2]
  norm_num

end Verif.Props
