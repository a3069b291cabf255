import Verif.Model.QBias
import Verif.Props.QuantStore
import Verif.Lemmas.Tensor

/-! C80: biases of quantized layers. -/

namespace Verif.Props

open Verif.Spec Verif.Model Verif.Model.QBias

/-- The loop goes on exactly while the scale is below `2 ^ -32`. -/
theorem shift_iff (x : ℝ) (hx : 0 < x) : 32 ≤ shift x ↔ x < (2 : ℝ) ^ (-32 : ℤ) := by
  have := Int.lt_zpow_iff_log_lt (R := ℝ) (b := 2) (by decide) (x := -32) hx
  push_cast at this
  rw [this]
  unfold shift
  rw [if_neg hx.ne']
  omega

/-- **C80, rescaling stops**: for all positive scales, at a weight scale that is the old one times a power of 10; it changes nothing when the
ratio of scales is at least `2 ^ -32`, and otherwise leaves it between `2 ^ -32` and ten times that. -/
theorem C80_rescale (sIn sOut sW : ℝ) (h1 : 0 < sIn) (h2 : 0 < sOut) (h3 : 0 < sW) :
    ∃ N k, ∀ fuel ≥ N, ∃ sW', rescale sIn sOut fuel sW = some sW' ∧ sW' = sW * 10 ^ k ∧
      (2 : ℝ) ^ (-32 : ℤ) ≤ sIn * sW' / sOut ∧
      ((2 : ℝ) ^ (-32 : ℤ) ≤ sIn * sW / sOut → sW' = sW) ∧
      (sIn * sW / sOut < (2 : ℝ) ^ (-32 : ℤ) → sIn * sW' / sOut < 10 * (2 : ℝ) ^ (-32 : ℤ)) := by
  -- enough factors of 10 reach the bound
  have hpos : 0 < sIn * sW / sOut := by positivity
  obtain ⟨m, hm⟩ : ∃ m : Nat, (2 : ℝ) ^ (-32 : ℤ) ≤ sIn * sW / sOut * 10 ^ m := by
    obtain ⟨m, hm⟩ := pow_unbounded_of_one_lt ((2 : ℝ) ^ (-32 : ℤ) / (sIn * sW / sOut)) (show (1 : ℝ) < 10 by norm_num)
    refine ⟨m, ?_⟩
    rw [div_lt_iff₀ hpos] at hm
    linarith
  -- induction on that number
  suffices H : ∀ m : Nat, ∀ sW : ℝ, 0 < sW → (2 : ℝ) ^ (-32 : ℤ) ≤ sIn * sW / sOut * 10 ^ m →
      ∃ k, ∀ fuel ≥ m + 1, ∃ sW', rescale sIn sOut fuel sW = some sW' ∧ sW' = sW * 10 ^ k ∧
      (2 : ℝ) ^ (-32 : ℤ) ≤ sIn * sW' / sOut ∧
      ((2 : ℝ) ^ (-32 : ℤ) ≤ sIn * sW / sOut → sW' = sW) ∧
      (sIn * sW / sOut < (2 : ℝ) ^ (-32 : ℤ) → sIn * sW' / sOut < 10 * (2 : ℝ) ^ (-32 : ℤ)) by
    obtain ⟨k, hk⟩ := H m sW h3 hm
    exact ⟨m + 1, k, hk⟩
  intro m
  induction m with
  | zero =>
    intro sW h3 hm
    refine ⟨0, ?_⟩
    intro fuel hf
    obtain ⟨fuel, rfl⟩ : ∃ f, fuel = f + 1 := ⟨fuel - 1, by omega⟩
    have hp : 0 < sIn * sW / sOut := by positivity
    have hs : ¬ 32 ≤ shift (sIn * sW / sOut) := by
      rw [shift_iff _ hp]; simpa using hm
    refine ⟨sW, by rw [rescale, if_neg hs], by simp, by simpa using hm, fun _ => rfl, ?_⟩
    intro h
    simp only [pow_zero, mul_one] at hm
    linarith
  | succ m ih =>
    intro sW h3 hm
    have hp : 0 < sIn * sW / sOut := by positivity
    by_cases hs : 32 ≤ shift (sIn * sW / sOut)
    · have hlt := (shift_iff _ hp).1 hs
      have e10 : sIn * (sW * 10) / sOut = 10 * (sIn * sW / sOut) := by ring
      obtain ⟨k, hk⟩ := ih (sW * 10) (by positivity) (by rw [e10]; rw [pow_succ] at hm; linarith)
      refine ⟨k + 1, ?_⟩
      intro fuel hf
      obtain ⟨fuel, rfl⟩ : ∃ f, fuel = f + 1 := ⟨fuel - 1, by omega⟩
      obtain ⟨sW', g1, g2, g3, g4, g5⟩ := hk fuel (by omega)
      refine ⟨sW', by rw [rescale, if_pos hs, g1], by rw [g2, pow_succ]; ring, g3, ?_, ?_⟩
      · intro h; linarith
      · intro _
        by_cases hge : (2 : ℝ) ^ (-32 : ℤ) ≤ sIn * (sW * 10) / sOut
        · rw [g4 hge, e10]; linarith
        · exact g5 (not_le.1 hge)
    · have hge : (2 : ℝ) ^ (-32 : ℤ) ≤ sIn * sW / sOut := by
        by_contra h; exact hs ((shift_iff _ hp).2 (not_le.1 h))
      refine ⟨0, ?_⟩
      intro fuel hf
      obtain ⟨fuel, rfl⟩ : ∃ f, fuel = f + 1 := ⟨fuel - 1, by omega⟩
      refine ⟨sW, by rw [rescale, if_neg hs], by simp, hge, fun _ => rfl, ?_⟩
      intro h; linarith

example : (0 : ℝ) < 1 / 100 := by norm_num

/-- **C80, the loop does not stop for a weight scale of 0**, whatever the number of rounds. -/
theorem C80_rescale_zero_false (sIn sOut : ℝ) (fuel : Nat) : rescale sIn sOut fuel 0 = none := by
  have h : 32 ≤ shift 0 := by simp [shift]
  induction fuel with
  | zero => rfl
  | succ n ih => rw [rescale, mul_zero, zero_div, if_pos h, zero_mul, ih]

/-- The quantized element stands for the real one to within half a step, unless it is out of the type's range. -/
theorem quantize_near (rnd : ℝ → Int) (hr : IsNearest rnd) (ty : IntType) (s x : ℝ) (hs : 0 < s)
    (hlo : (ty.lo : ℝ) ≤ x / s) (hhi : x / s ≤ ty.hi) : |s * (quantize rnd ty s x : ℝ) - x| ≤ s / 2 := by
  have hlh : ty.lo ≤ ty.hi := by cases ty <;> decide
  have hn := abs_le.1 (hr (x / s + 0))
  simp only [add_zero] at hn
  have key : |((quantize rnd ty s x : Int) : ℝ) - x / s| ≤ 1 / 2 := by
    unfold quantize
    simp only [add_zero]
    rw [abs_le]
    by_cases h1 : rnd (x / s) > ty.hi
    · have h1' : (ty.hi : ℝ) < rnd (x / s) := by exact_mod_cast h1
      rw [if_pos h1, if_neg (by omega)]
      constructor <;> linarith
    · rw [if_neg h1]
      by_cases h2 : rnd (x / s) < ty.lo
      · have h2' : (rnd (x / s) : ℝ) < ty.lo := by exact_mod_cast h2
        rw [if_pos h2]
        constructor <;> linarith
      · rw [if_neg h2]; constructor <;> linarith
  have e : s * (quantize rnd ty s x : ℝ) - x = s * ((quantize rnd ty s x : ℝ) - x / s) := by field_simp
  rw [e, abs_mul, abs_of_pos hs]
  nlinarith

theorem biasScale_at (sIn : ℝ) (w : Scales) (c : Nat) (hc : ∀ ss, w = .channel ss → c < ss.length) : (biasScale sIn w).at c = sIn * w.at c := by
  cases w with
  | tensor s => rfl
  | channel ss =>
    have := hc ss rfl
    simp [biasScale, Scales.at, List.getD_eq_getElem?_getD, this]

theorem quantizeAll_getD (rnd : ℝ → Int) (ty : IntType) (sc : Scales) (b : List ℝ) (c : Nat) (hc : c < b.length) :
    (quantizeAll rnd ty sc b).getD c 0 = quantize rnd ty (sc.at c) (b.getD c 0) := by
  unfold quantizeAll
  rw [List.getD_eq_getElem?_getD, List.getElem?_map, List.getElem?_range hc]
  rfl

/-- **C80 for convolutions**: for every bias, all scales, one weight scale or one per channel, every target type and every way of rounding ties: the
stored bias of a channel is in units of input scale times the channel's weight scale, as the operator takes it to be, and stands for PyTorch's
bias to within half such a unit, as long as it fits the stored type. A bias is stored when there is one. Partial: biases that do not
fit, which for transposed convolutions is the rule (`C80_transposed_false`). -/
theorem C80_conv_partial (rnd : ℝ → Int) (hr : IsNearest rnd) (fuel : Nat) (qt : QType) (transposed mtk withBias : Bool) (sIn sOut : ℝ)
    (w : Scales) (bias : List ℝ) (o : Out) (h : convBias rnd fuel qt transposed mtk withBias sIn sOut w (some bias) = some o)
    (c : Nat) (hc : c < bias.length) (hw : ∀ ss, o.weight = .channel ss → c < ss.length) (hsIn : 0 < sIn) (hsW : 0 < o.weight.at c)
    (hlo : ((biasType qt transposed mtk withBias).lo : ℝ) ≤ bias.getD c 0 / (sIn * o.weight.at c))
    (hhi : bias.getD c 0 / (sIn * o.weight.at c) ≤ (biasType qt transposed mtk withBias).hi) :
    o.scale.at c = sIn * o.weight.at c ∧
    ((∃ q, o.bias = some q ∧ q.length = bias.length ∧ |o.scale.at c * (q.getD c 0 : ℝ) - bias.getD c 0| ≤ o.scale.at c / 2)
      ∨ (o.bias = none ∧ bias.getD c 0 = 0)) := by
  unfold convBias at h
  rw [Option.map_eq_some_iff] at h
  obtain ⟨w', hw', rfl⟩ := h
  dsimp only at hw hsW hlo hhi ⊢
  have hsc := biasScale_at sIn w' c hw
  refine ⟨hsc, ?_⟩
  split_ifs with hz
  · right
    refine ⟨rfl, ?_⟩
    have := hz.2 bias rfl (bias.getD c 0) (by rw [Lemmas.getD_eq_getElem _ _ _ hc]; exact List.getElem_mem hc)
    exact this
  · left
    refine ⟨_, rfl, by simp [quantizeAll], ?_⟩
    rw [quantizeAll_getD _ _ _ _ _ hc, hsc]
    exact quantize_near rnd hr _ _ _ (by positivity) hlo hhi

/-- The same layer output as PyTorch's, to within half a unit, when the weight scale was not changed. -/
theorem C80_conv_output_partial (rnd : ℝ → Int) (hr : IsNearest rnd) (fuel : Nat) (qt : QType) (transposed mtk withBias : Bool) (sIn sOut : ℝ)
    (w : Scales) (bias : List ℝ) (o : Out) (h : convBias rnd fuel qt transposed mtk withBias sIn sOut w (some bias) = some o)
    (hsame : o.weight = w)
    (c : Nat) (hc : c < bias.length) (hw : ∀ ss, w = .channel ss → c < ss.length) (hsIn : 0 < sIn) (hsW : 0 < w.at c)
    (hlo : ((biasType qt transposed mtk withBias).lo : ℝ) ≤ bias.getD c 0 / (sIn * w.at c))
    (hhi : bias.getD c 0 / (sIn * w.at c) ≤ (biasType qt transposed mtk withBias).hi) (acc : Int) :
    |layerOutput (o.scale.at c) acc ((o.bias.getD []).getD c 0) - torchLayerOutput sIn (w.at c) acc (bias.getD c 0)| ≤ sIn * w.at c / 2 := by
  subst hsame
  obtain ⟨h1, h2⟩ := C80_conv_partial rnd hr fuel qt transposed mtk withBias sIn sOut _ bias o h c hc hw hsIn hsW hlo hhi
  unfold layerOutput torchLayerOutput
  rw [h1] at h2 ⊢
  rcases h2 with ⟨q, h3, _, h4⟩ | ⟨h3, h4⟩
  · rw [h3]
    simp only [Option.getD_some]
    have e : sIn * o.weight.at c * ((acc : ℝ) + (q.getD c 0 : ℝ)) - (sIn * o.weight.at c * acc + bias.getD c 0)
        = sIn * o.weight.at c * (q.getD c 0 : ℝ) - bias.getD c 0 := by ring
    rw [e]; exact h4
  · rw [h3, h4]
    have : 0 < sIn * o.weight.at c := by positivity
    simp
    positivity

/-- A convolution with two channels: biases 1 and −2, scales 1/10 and 1/100, 1/200. -/
example : ∃ o, convBias round 1 .i8 false false false (1 / 10) 1 (.channel [1 / 100, 1 / 200]) (some [1, -2]) = some o ∧
    o.weight = .channel [1 / 100, 1 / 200] := by
  refine ⟨_, rfl, rfl⟩

/-- **C80, linear layers**: as for convolutions; a missing bias becomes a bias of zeros. Partial: biases that do not fit; weights with one scale per
channel are an error. -/
theorem C80_linear_partial (rnd : ℝ → Int) (hr : IsNearest rnd) (fuel : Nat) (qt : QType) (sIn sOut s : ℝ) (n : Nat)
    (bias : Option (List ℝ)) (hn : ∀ b ∈ bias, b.length = n) (o : Out) (h : linearBias rnd fuel qt sIn sOut (.tensor s) n bias = some o)
    (s' : ℝ) (ho : o.weight = .tensor s') (c : Nat) (hc : c < n) (hsIn : 0 < sIn) (hs' : 0 < s')
    (b : ℝ) (hb : b = (bias.map (·.getD c 0)).getD 0)
    (hlo : ((if qt = .i16 then IntType.i64 else .i32).lo : ℝ) ≤ b / (sIn * s')) (hhi : b / (sIn * s') ≤ (if qt = .i16 then IntType.i64 else .i32).hi) :
    o.scale = .tensor (sIn * s') ∧ ∃ q, o.bias = some q ∧ q.length = n ∧ |sIn * s' * (q.getD c 0 : ℝ) - b| ≤ sIn * s' / 2 := by
  unfold linearBias at h
  simp only [Option.map_eq_some_iff] at h
  obtain ⟨s'', h1, rfl⟩ := h
  dsimp only at ho ⊢
  rw [Scales.tensor.injEq] at ho
  subst ho
  refine ⟨rfl, _, rfl, ?_, ?_⟩
  · cases bias with
    | none => simp [quantizeAll]
    | some b => simp [quantizeAll, hn b rfl]
  · cases bias with
    | none =>
      simp only [Option.getD_none, Option.map_none] at hb ⊢
      subst hb
      rw [quantizeAll_getD _ _ _ _ _ (by simpa using hc)]
      have e : (List.replicate n (0 : ℝ)).getD c 0 = 0 := by simp [List.getD_eq_getElem?_getD, List.getElem?_replicate, hc]
      rw [e]
      exact quantize_near rnd hr _ _ _ (by positivity) hlo hhi
    | some bl =>
      simp only [Option.getD_some, Option.map_some] at hb ⊢
      subst hb
      rw [quantizeAll_getD _ _ _ _ _ (by rw [hn bl rfl]; exact hc)]
      exact quantize_near rnd hr _ _ _ (by positivity) hlo hhi

/-- **C80 is false for transposed convolutions** converted without a bias input: the bias is stored in 8 bits in units of input scale times weight scale. With
scales of 1/100 a bias of 1 (10000 units) is stored as 127, a hundredth of its value; and with unsigned storage every negative bias is stored as 0. -/
theorem C80_transposed_false (rnd : ℝ → Int) (hr : IsNearest rnd) :
    quantize rnd (biasType .i8 true false false) (1 / 100 * (1 / 100)) 1 = 127 ∧
    ∀ s x : ℝ, 0 < s → x < 0 → quantize rnd (biasType .u8 true false false) s x = 0 := by
  constructor
  · have hn := abs_le.1 (hr (1 / (1 / 100 * (1 / 100)) + 0))
    have h : rnd (1 / (1 / 100 * (1 / 100)) + 0) > 127 := by
      have : (127 : ℝ) < rnd (1 / (1 / 100 * (1 / 100)) + 0) := by
        have e : (1 : ℝ) / (1 / 100 * (1 / 100)) + 0 = 10000 := by norm_num
        rw [e] at hn ⊢
        linarith
      exact_mod_cast this
    unfold quantize
    have e1 : (biasType .i8 true false false).hi = 127 := by decide
    have e2 : (biasType .i8 true false false).lo = -128 := by decide
    simp only [e1, e2]
    rw [if_pos h]
    decide
  · intro s x hs hx
    have hq : x / s < 0 := div_neg_of_neg_of_pos hx hs
    have hn := abs_le.1 (hr (x / s + 0))
    have h0 : rnd (x / s + 0) ≤ 0 := by
      have : (rnd (x / s + 0) : ℝ) < 1 := by linarith
      have : rnd (x / s + 0) < 1 := by exact_mod_cast this
      omega
    unfold quantize
    have e1 : (biasType .u8 true false false).hi = 255 := by decide
    have e2 : (biasType .u8 true false false).lo = 0 := by decide
    simp only [e1, e2]
    have h255 : ¬ rnd (x / s + 0) > 255 := by omega
    rw [if_neg h255]
    by_cases hl : rnd (x / s + 0) < 0
    · rw [if_pos hl]
    · rw [if_neg hl]; omega

/-- **C80, what rescaling does to the layer**: with the new weight scale the accumulator stands for a larger number. The difference is less than
`|acc| * 10 / 2 ^ 32` units of the output scale, for every accumulator. -/
theorem C80_rescale_effect (sIn sOut sW sW' : ℝ) (h1 : 0 < sIn) (h2 : 0 < sOut) (h3 : 0 < sW)
    (fuel : Nat) (h : rescale sIn sOut fuel sW = some sW') (acc : Int) :
    |sIn * sW' * acc - sIn * sW * acc| / sOut ≤ |(acc : ℝ)| * (10 * (2 : ℝ) ^ (-32 : ℤ)) := by
  -- the loop's result
  have H : ∀ fuel sW, 0 < sW → rescale sIn sOut fuel sW = some sW' → sW ≤ sW' ∧ (sW' = sW ∨ sIn * sW' / sOut < 10 * (2 : ℝ) ^ (-32 : ℤ)) := by
    intro fuel
    induction fuel with
    | zero => intro sW _ h; simp [rescale] at h
    | succ n ih =>
      intro sW h3 h
      rw [rescale] at h
      have hp : 0 < sIn * sW / sOut := by positivity
      split_ifs at h with hs
      · have hlt := (shift_iff _ hp).1 hs
        obtain ⟨g1, g2⟩ := ih _ (by positivity) h
        refine ⟨by linarith, Or.inr ?_⟩
        rcases g2 with g2 | g2
        · rw [g2]
          have : sIn * (sW * 10) / sOut = 10 * (sIn * sW / sOut) := by ring
          rw [this]; linarith
        · exact g2
      · rw [Option.some.injEq] at h
        exact ⟨le_of_eq h, Or.inl h.symm⟩
  obtain ⟨g1, g2⟩ := H fuel sW h3 h
  have e : sIn * sW' * acc - sIn * sW * acc = (sIn * (sW' - sW)) * acc := by ring
  have hnn : 0 ≤ sIn * (sW' - sW) := mul_nonneg h1.le (by linarith)
  rw [e, abs_mul, abs_of_nonneg hnn, mul_div_right_comm, mul_comm]
  apply mul_le_mul_of_nonneg_left _ (abs_nonneg _)
  rcases g2 with g2 | g2
  · rw [g2]; simp
  · have : sIn * (sW' - sW) / sOut ≤ sIn * sW' / sOut := by
      apply div_le_div_of_nonneg_right _ h2.le
      nlinarith
    linarith

example : ∃ s', rescale 1 1 2 (1 / 2 ^ 33) = some s' := by
  have h1 : 32 ≤ shift (1 * (1 / 2 ^ 33) / 1) := by rw [shift_iff _ (by positivity)]; norm_num [zpow_neg]
  have h2 : ¬ 32 ≤ shift (1 * (1 / 2 ^ 33 * 10) / 1) := by rw [shift_iff _ (by positivity)]; norm_num [zpow_neg]
  exact ⟨_, by rw [rescale, if_pos h1, rescale, if_neg h2]⟩

end Verif.Props
