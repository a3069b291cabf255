import Verif.Model.HybridQuant
import Verif.Lemmas.Tensor
import Verif.Props.QuantStore

/-! C20: the error of weight-only quantization. -/

namespace Verif.Props
open Verif.Spec Verif.Model Verif.Lemmas

theorem foldl_min_le (l : List ℝ) (a : ℝ) : l.foldl min a ≤ a ∧ ∀ x ∈ l, l.foldl min a ≤ x := by
  induction l generalizing a with
  | nil => simp
  | cons b l ih =>
    obtain ⟨h1, h2⟩ := ih (min a b)
    refine ⟨le_trans h1 (min_le_left _ _), ?_⟩
    intro x hx
    rcases List.mem_cons.1 hx with rfl | hx
    · exact le_trans h1 (min_le_right _ _)
    · exact h2 x hx

theorem le_foldl_max (l : List ℝ) (a : ℝ) : a ≤ l.foldl max a ∧ ∀ x ∈ l, x ≤ l.foldl max a := by
  induction l generalizing a with
  | nil => simp
  | cons b l ih =>
    obtain ⟨h1, h2⟩ := ih (max a b)
    refine ⟨le_trans (le_max_left _ _) h1, ?_⟩
    intro x hx
    rcases List.mem_cons.1 hx with rfl | hx
    · exact le_trans (le_max_right _ _) h1
    · exact h2 x hx

theorem amin_le {l : List ℝ} {x : ℝ} (h : x ∈ l) : amin l ≤ x := by
  cases l with
  | nil => simp at h
  | cons a r =>
    rcases List.mem_cons.1 h with rfl | h
    · exact (foldl_min_le r x).1
    · exact (foldl_min_le r a).2 x h

theorem le_amax {l : List ℝ} {x : ℝ} (h : x ∈ l) : x ≤ amax l := by
  cases l with
  | nil => simp at h
  | cons a r =>
    rcases List.mem_cons.1 h with rfl | h
    · exact (le_foldl_max r x).1
    · exact (le_foldl_max r a).2 x h

theorem hybridScale_pos {eps : ℝ} (he : 0 < eps) (vals : List ℝ) : 0 < hybridScale eps vals :=
  lt_of_lt_of_le he (le_max_right _ _)

theorem abs_le_scale {eps : ℝ} {vals : List ℝ} {x : ℝ} (h : x ∈ vals) : |x| ≤ 127 * hybridScale eps vals := by
  have h1 := amin_le h
  have h2 := le_amax h
  have h3 : max (-(min (amin vals) 0)) (max (amax vals) 0) / (254 / 2) ≤ hybridScale eps vals := le_max_left _ _
  have h4 : |x| ≤ max (-(min (amin vals) 0)) (max (amax vals) 0) := by
    rw [abs_le]
    constructor
    · have : -(min (amin vals) 0) ≤ max (-(min (amin vals) 0)) (max (amax vals) 0) := le_max_left _ _
      have h5 : min (amin vals) 0 ≤ x := le_trans (min_le_left _ _) h1
      linarith
    · exact le_trans h2 (le_trans (le_max_left _ _) (le_max_right _ _))
  have h6 : max (-(min (amin vals) 0)) (max (amax vals) 0) / (254 / 2) * 127 = max (-(min (amin vals) 0)) (max (amax vals) 0) := by ring
  nlinarith

/-- Quantizing one value with zero point 0. -/
theorem quantize_error {rnd : ℝ → Int} (hr : IsNearest rnd) {s x : ℝ} (hs : 0 < s) (hx : |x| ≤ 127 * s) :
    (-127 ≤ torchQuantize rnd (-128) 127 s 0 x ∧ torchQuantize rnd (-128) 127 s 0 x ≤ 127) ∧
    |dequant s 0 (torchQuantize rnd (-128) 127 s 0 x) - x| ≤ s / 2 := by
  have hq : |x / s| ≤ 127 := by rw [abs_div, abs_of_pos hs, div_le_iff₀ hs]; exact hx
  have hn := hr (x / s)
  have hb : |(rnd (x / s) : ℝ)| < 128 := by
    have h := abs_add_le ((rnd (x / s) : ℝ) - x / s) (x / s)
    rw [sub_add_cancel] at h
    linarith
  have hb' : |rnd (x / s)| < 128 := by exact_mod_cast hb
  have hb2 := abs_lt.1 hb'
  have e : torchQuantize rnd (-128) 127 s 0 x = rnd (x / s) := by
    unfold torchQuantize; omega
  rw [e]
  refine ⟨by omega, ?_⟩
  unfold dequant
  have : s * ((rnd (x / s) : ℝ) - ((0 : Int) : ℝ)) - x = s * ((rnd (x / s) : ℝ) - x / s) := by
    have : s ≠ 0 := ne_of_gt hs
    push_cast; field_simp; ring
  rw [this, abs_mul, abs_of_pos hs]
  nlinarith

theorem mem_reduceOver (t : Tensor ℝ) (axis : Option Nat) (idx : List Nat) (hb : InBounds t.shape idx) :
    t.get idx ∈ reduceOver t axis (chanOf axis idx) := by
  have h1 : idx ∈ allIdx t.shape := by
    unfold allIdx
    rw [List.mem_map]
    exact ⟨flat t.shape idx, by simpa using flat_lt hb, unflat_flat hb⟩
  cases axis with
  | none => exact List.mem_map.2 ⟨idx, h1, rfl⟩
  | some a => exact List.mem_map.2 ⟨idx, by simp [h1, chanOf], rfl⟩

/-- C20: for every weight tensor, granularity (per tensor, or per channel on any axis), element and rounding mode: the stored integer
lies in -127..127 (so the storage type never saturates), the dequantized weight is within half a step of the weight, and a weight 0
is stored as 0. -/
theorem C20_hybrid_quantize (rnd : ℝ → Int) (hr : IsNearest rnd) (eps : ℝ) (he : 0 < eps) (axis : Option Nat) (t : Tensor ℝ)
    (idx : List Nat) (hb : InBounds t.shape idx) :
    0 < hybridScaleAt eps axis t idx ∧
    (-127 ≤ hybridQuantize rnd eps axis t idx ∧ hybridQuantize rnd eps axis t idx ≤ 127) ∧
    |dequant (hybridScaleAt eps axis t idx) 0 (hybridQuantize rnd eps axis t idx) - t.get idx| ≤ hybridScaleAt eps axis t idx / 2 ∧
    (t.get idx = 0 → hybridQuantize rnd eps axis t idx = 0) := by
  have hm := mem_reduceOver t axis idx hb
  have hpos : 0 < hybridScaleAt eps axis t idx := hybridScale_pos he _
  have hx : |t.get idx| ≤ 127 * hybridScaleAt eps axis t idx := abs_le_scale hm
  obtain ⟨h1, h2⟩ := quantize_error hr hpos hx
  refine ⟨hpos, h1, h2, ?_⟩
  intro h0
  show torchQuantize rnd (-128) 127 (hybridScaleAt eps axis t idx) 0 (t.get idx) = 0
  unfold torchQuantize
  rw [h0, zero_div]
  have := nearest_int hr 0
  push_cast at this
  rw [this]
  rfl

/-- C20, the step itself: the scale is the largest magnitude of the tensor (or channel) over 127, unless that is below `eps`. -/
theorem C20_scale_tight (eps : ℝ) (axis : Option Nat) (t : Tensor ℝ) (idx : List Nat) (hb : InBounds t.shape idx) (M : ℝ)
    (hM : ∀ j, InBounds t.shape j → (∀ a, axis = some a → j.getD a 0 = idx.getD a 0) → |t.get j| ≤ M) :
    hybridScaleAt eps axis t idx ≤ max (M / 127) eps := by
  have hM0 : 0 ≤ M := le_trans (abs_nonneg _) (hM idx hb (fun _ _ => rfl))
  unfold hybridScaleAt hybridScale
  apply max_le_max _ (le_refl _)
  set vals := reduceOver t axis (chanOf axis idx) with hv
  have hall : ∀ x ∈ vals, |x| ≤ M := by
    intro x hx
    have key : ∀ k, k < t.shape.prod → (∀ a, axis = some a → (unflat t.shape k).getD a 0 = idx.getD a 0) → |t.get (unflat t.shape k)| ≤ M :=
      fun k hk h => hM _ (unflat_inBounds hk) h
    cases axis with
    | none =>
      simp only [hv, reduceOver, allIdx, List.mem_map, List.mem_range] at hx
      obtain ⟨j, ⟨k, hk, rfl⟩, rfl⟩ := hx
      exact key k hk (fun a h => by cases h)
    | some a =>
      simp only [hv, reduceOver, chanOf, allIdx, List.mem_map, List.mem_filter, List.mem_range, beq_iff_eq] at hx
      obtain ⟨j, ⟨⟨k, hk, rfl⟩, h⟩, rfl⟩ := hx
      exact key k hk (fun a' h' => by cases h'; exact h)
  have hmin : -M ≤ amin vals := by
    cases hvv : vals with
    | nil => simp [amin, hM0]
    | cons a r =>
      rw [hvv] at hall
      have : ∀ (r : List ℝ) (a : ℝ), -M ≤ a → (∀ x ∈ r, |x| ≤ M) → -M ≤ r.foldl min a := by
        intro r
        induction r with
        | nil => intro a h _; simpa using h
        | cons b r ih =>
          intro a h hr
          exact ih _ (le_min h (abs_le.1 (hr b (by simp))).1) (fun x hx => hr x (by simp [hx]))
      exact this r a (abs_le.1 (hall a (by simp))).1 (fun x hx => hall x (by simp [hx]))
  have hmax : amax vals ≤ M := by
    cases hvv : vals with
    | nil => simp [amax, hM0]
    | cons a r =>
      rw [hvv] at hall
      have : ∀ (r : List ℝ) (a : ℝ), a ≤ M → (∀ x ∈ r, |x| ≤ M) → r.foldl max a ≤ M := by
        intro r
        induction r with
        | nil => intro a h _; simpa using h
        | cons b r ih =>
          intro a h hr
          exact ih _ (max_le h (abs_le.1 (hr b (by simp))).2) (fun x hx => hr x (by simp [hx]))
      exact this r a (abs_le.1 (hall a (by simp))).2 (fun x hx => hall x (by simp [hx]))
  have h1 : max (-(min (amin vals) 0)) (max (amax vals) 0) ≤ M := by
    apply max_le
    · have : -M ≤ min (amin vals) 0 := le_min hmin (by linarith)
      linarith
    · exact max_le hmax hM0
  have : (254 / 2 : ℝ) = 127 := by norm_num
  rw [this]
  exact div_le_div_of_nonneg_right h1 (by norm_num)

/-- C20, granularity: fully connected and recurrent weights, and everything without per-channel mode, get one scale per tensor;
convolutions get one per output channel (axis 0, and the last axis for depthwise); a depthwise weight is left in float without
per-channel mode. -/
theorem C20_granularity (op : HybridOp) (perChannel : Bool) (ndim : Nat) :
    hybridAxis op perChannel ndim =
      match op, perChannel with
      | .depthwise, false => none
      | .depthwise, true => some (some (ndim - 1))
      | .conv2d, true => some (some 0)
      | _, _ => some none := by
  cases op <;> cases perChannel <;> simp [hybridAxis]

/-- C20, integer LSTM bias: within half of the product of the weight and input steps. -/
theorem C20_lstm_bias (rnd : ℝ → Int) (hr : IsNearest rnd) (sw sx b : ℝ) (hw : 0 < sw) (hx : 0 < sx) :
    |dequant (sw * sx) 0 (lstmBias rnd sw sx b) - b| ≤ sw * sx / 2 := by
  have hs : 0 < sw * sx := mul_pos hw hx
  have hn := hr (b / (sw * sx))
  unfold dequant lstmBias
  have : sw * sx * ((rnd (b / (sw * sx)) : ℝ) - ((0 : Int) : ℝ)) - b = sw * sx * ((rnd (b / (sw * sx)) : ℝ) - b / (sw * sx)) := by
    have : sw * sx ≠ 0 := ne_of_gt hs
    push_cast
    rw [sub_zero, mul_sub, mul_div_cancel₀ _ this]
  rw [this, abs_mul, abs_of_pos hs]
  nlinarith

/-- A weight matrix the hypotheses fit, with its scale. -/
example : InBounds [2, 3] [1, 2] ∧ (0 : ℝ) < 1 / 1000 := by
  constructor
  · simp [InBounds]
  · norm_num

end Verif.Props
