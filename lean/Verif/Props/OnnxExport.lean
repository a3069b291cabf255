import Verif.Model.OnnxExport
import Mathlib.Tactic.Linarith
import Mathlib.Tactic.NormNum
import Mathlib.Tactic.FieldSimp
import Mathlib.Tactic.Ring
import Mathlib.Tactic.Positivity
/-!
C125: preparing a model for export keeps what it computes.
-/

namespace Verif.Props
open Verif.Model Verif.Model.OnnxExport

/-! ### Fake-quantizers -/

/-- **C125**.  A symmetric fake-quantizer for unsigned numbers (zero point 128), such as an activation's, computes the same afterwards. -/
theorem C125_unsigned (f : Fq) (hs : f.sym = true ∨ f.fixed = true) (hz : f.zeroPoint = 128) (h0 : f.qmin = 0) (h1 : f.qmax = 255) :
    ∃ g, exportFq f = some g ∧ g.zeroPoint = 0 ∧ g.qmin = -128 ∧ g.qmax = 127 ∧ ∀ x, g.value x = f.value x := by
  have key : ∀ n : Int, clampInt (-128) 127 (0 + n) - 0 = clampInt 0 255 (128 + n) - 128 := by
    intro n; unfold clampInt; omega
  unfold exportFq
  by_cases hsym : f.sym = true
  · rw [if_pos hsym]
    refine ⟨_, rfl, rfl, rfl, rfl, fun x => ?_⟩
    simp only [Fq.value, hz, h0, h1, key]
  · have hfix : f.fixed = true := by tauto
    rw [if_neg hsym, if_pos hfix, if_pos hz]
    refine ⟨_, rfl, rfl, rfl, rfl, fun x => ?_⟩
    simp only [Fq.value, hz, h0, h1, key]

example : ∃ g, exportFq ⟨true, false, 1 / 10, 128, 0, 255⟩ = some g ∧ ∀ x, g.value x = (⟨true, false, 1 / 10, 128, 0, 255⟩ : Fq).value x := by
  obtain ⟨g, h1, _, _, _, h2⟩ := C125_unsigned ⟨true, false, 1 / 10, 128, 0, 255⟩ (.inl rfl) rfl rfl rfl
  exact ⟨g, h1, h2⟩

/-- **C125**.  A symmetric fake-quantizer for signed numbers keeps its value wherever that does not hit the lower bound of a range without -128. -/
theorem C125_signed_partial (f : Fq) (hs : f.sym = true) (hz : f.zeroPoint = 0) (h0 : f.qmin = -128 ∨ f.qmin = -127) (h1 : f.qmax = 127) (hpos : 0 < f.scale) :
    ∃ g, exportFq f = some g ∧ g.zeroPoint = 0 ∧ g.qmin = -128 ∧ g.qmax = 127 ∧ ∀ x, -(127 * f.scale) ≤ x ∨ f.qmin = -128 → g.value x = f.value x := by
  unfold exportFq
  rw [if_pos hs]
  refine ⟨_, rfl, rfl, rfl, rfl, fun x hx => ?_⟩
  simp only [Fq.value, hz, h1]
  rcases hx with hx | hx
  · have hr : (-127 : ℝ) ≤ x * (1 / f.scale) := by
      rw [mul_one_div, le_div_iff₀ hpos]
      linarith
    have hfl : (-127 : Int) ≤ ⌊x * (1 / f.scale)⌋ := Int.le_floor.mpr (by push_cast; exact hr)
    have hn : -127 ≤ roundEven (x * (1 / f.scale)) := by
      unfold roundEven
      split
      · exact hfl
      · split
        · omega
        · split <;> omega
    have : clampInt (-128) 127 (0 + roundEven (x * (1 / f.scale))) = clampInt f.qmin 127 (0 + roundEven (x * (1 / f.scale))) := by
      unfold clampInt
      rcases h0 with h | h <;> rw [h] <;> omega
    rw [this]
  · rw [hx]

example : ∃ g, exportFq ⟨true, false, 1 / 10, 0, -127, 127⟩ = some g ∧ g.value (-12) = (⟨true, false, 1 / 10, 0, -127, 127⟩ : Fq).value (-12) := by
  obtain ⟨g, h1, _, _, _, h2⟩ := C125_signed_partial ⟨true, false, 1 / 10, 0, -127, 127⟩ rfl rfl (.inr rfl) rfl (by norm_num)
  exact ⟨g, h1, h2 (-12) (.inl (by norm_num))⟩

private theorem oe_round (r : ℝ) : |r - roundEven r| ≤ 1 / 2 := by
  have h0 := Int.floor_le r
  have h1 := Int.lt_floor_add_one r
  unfold roundEven
  split
  · rw [abs_le]; constructor <;> linarith
  · split
    · push_cast; rw [abs_le]; constructor <;> linarith
    · split
      · rw [abs_le]; constructor <;> linarith
      · push_cast; rw [abs_le]; constructor <;> linarith

theorem roundEven_int (n : Int) : roundEven (n : ℝ) = n := by
  unfold roundEven
  rw [Int.floor_intCast, sub_self, if_pos (by norm_num)]

/-- A weight below the range it was given changes. -/
theorem C125_signed_false : ∃ g, exportFq ⟨true, false, 1, 0, -127, 127⟩ = some g ∧ g.value (-128) = -128 ∧ (⟨true, false, 1, 0, -127, 127⟩ : Fq).value (-128) = -127 := by
  have hr : roundEven ((-128 : ℝ) * (1 / 1)) = -128 := by
    have := roundEven_int (-128)
    rw [show ((-128 : ℝ) * (1 / 1)) = ((-128 : Int) : ℝ) by norm_num]
    exact this
  refine ⟨⟨true, false, 1, 0, -128, 127⟩, by simp [exportFq], ?_, ?_⟩
  · simp only [Fq.value, hr]
    norm_num [clampInt]
  · simp only [Fq.value, hr]
    norm_num [clampInt]

/-- The output of a sigmoid (256 steps of 1/256 from 0) is exported with 128 steps of 1/128: at most a step of 1/128 is lost on values between 0 and 1. -/
theorem C125_sigmoid_partial (x : ℝ) (h0 : 0 ≤ x) (h1 : x ≤ 1) :
    ∃ g, exportFq ⟨false, true, 1 / 256, 0, 0, 255⟩ = some g ∧ |g.value x - x| ≤ 1 / 128 := by
  refine ⟨⟨true, true, 1 / 256 * 2, 0, -128, 127⟩, by simp [exportFq], ?_⟩
  simp only [Fq.value]
  have hr := abs_le.mp (oe_round (x * (1 / (1 / 256 * 2))))
  set n := roundEven (x * (1 / (1 / 256 * 2))) with hn
  have e : x * (1 / (1 / 256 * 2)) = 128 * x := by ring
  rw [e] at hr
  have hlo : ((-1 : Int) : ℝ) < n := by push_cast; linarith
  have hhi : (n : ℝ) < ((129 : Int) : ℝ) := by push_cast; linarith
  have hlo' : -1 < n := by exact_mod_cast hlo
  have hhi' : n < 129 := by exact_mod_cast hhi
  by_cases hc : n ≤ 127
  · have : clampInt (-128) 127 (0 + n) - 0 = n := by unfold clampInt; omega
    rw [this, abs_le]
    constructor <;> linarith
  · have : clampInt (-128) 127 (0 + n) - 0 = 127 := by unfold clampInt; omega
    have hnv : n = 128 := by omega
    rw [hnv] at hr
    rw [this, abs_le]
    push_cast at hr ⊢
    constructor <;> linarith

/-- The sigmoid's values are not kept: half of them are no longer there. -/
theorem C125_sigmoid_false : ∃ g, exportFq ⟨false, true, 1 / 256, 0, 0, 255⟩ = some g ∧ g.value (1 / 256) = 0 ∧ (⟨false, true, 1 / 256, 0, 0, 255⟩ : Fq).value (1 / 256) = 1 / 256 := by
  refine ⟨⟨true, true, 1 / 256 * 2, 0, -128, 127⟩, by simp [exportFq], ?_, ?_⟩
  · have hr : roundEven ((1 / 256 : ℝ) * (1 / (1 / 256 * 2))) = 0 := by
      have hf : ⌊((1 / 256 : ℝ) * (1 / (1 / 256 * 2)))⌋ = 0 := by rw [Int.floor_eq_iff]; norm_num
      unfold roundEven
      rw [hf]
      norm_num
    simp only [Fq.value, hr]
    norm_num [clampInt]
  · have hr : roundEven ((1 / 256 : ℝ) * (1 / (1 / 256))) = 1 := by
      rw [show ((1 / 256 : ℝ) * (1 / (1 / 256))) = ((1 : Int) : ℝ) by norm_num]
      exact roundEven_int 1
    simp only [Fq.value, hr]
    norm_num [clampInt]

/-- With asymmetric activations, which is the default, preparing for export fails with an `AssertionError`. -/
theorem C125_asymmetric_false (f : Fq) (hs : f.sym = false) (hf : f.fixed = false) : exportFq f = none := by
  simp [exportFq, hs, hf]

/-! ### Convolutions with batch normalization -/

/-- **C125**.  The new forward of a convolution fused with a batch normalization computes what the prepared one computes in evaluation mode, with and without bias, for whatever the
fake-quantized convolution gives; only channels whose batch normalization multiplies by zero are left out (both divide by zero there). -/
theorem C125_conv_bn (conv : ℝ → ℝ) (b : ConvBn) (hg : b.gamma ≠ 0) (hv : 0 < b.var + b.eps) (relu : Bool) :
    exportedForward conv (exportConvBn b).2 (exportConvBn b).1 relu = (if relu then max (b.forward conv) 0 else b.forward conv) := by
  have hstd : b.std ≠ 0 := (Real.sqrt_pos.mpr hv).ne'
  have hfac : b.factor ≠ 0 := div_ne_zero hg hstd
  have hcore : (exportBn b).bn (conv b.factor + (exportBn b).bias.getD 0) = b.forward conv := by
    have hs' : (exportBn b).std = b.std := rfl
    have hgam : (exportBn b).gamma = b.gamma / b.factor := rfl
    have hbet : (exportBn b).beta = b.beta := rfl
    have hbias : (exportBn b).bias = none := rfl
    have hmean : (exportBn b).mean = (b.mean - b.bias.getD 0) * b.factor := by
      unfold exportBn
      cases b.bias <;> simp
    unfold ConvBn.forward ConvBn.bn
    rw [hs', hgam, hbet, hbias, hmean]
    have hfd : b.factor * b.std = b.gamma := by
      unfold ConvBn.factor
      field_simp
    simp only [Option.getD_none, add_zero]
    field_simp
    ring
  unfold exportedForward exportConvBn
  simp only [hcore]

example : exportedForward (fun s => 3 * s) (exportConvBn ⟨some 1, 2, 3, 1, 5, 7⟩).2 (exportConvBn ⟨some 1, 2, 3, 1, 5, 7⟩).1 true =
    max ((⟨some 1, 2, 3, 1, 5, 7⟩ : ConvBn).forward (fun s => 3 * s)) 0 :=
  C125_conv_bn _ _ (by norm_num) (by norm_num) true

/-- Preparing twice breaks the model: the second time the factor is one, but the weights have not been multiplied by the first. -/
theorem C125_twice_false :
    let b : ConvBn := ⟨none, 0, 1, 0, 2, 0⟩
    let conv : ℝ → ℝ := fun s => 3 * s
    exportedForward conv (exportConvBn b).2 (exportConvBn b).1 false = 6 ∧
    exportedForward conv (exportConvBn (exportConvBn b).1).2 (exportConvBn (exportConvBn b).1).1 false = 3 := by
  norm_num [exportedForward, exportConvBn, exportBn, ConvBn.bn, ConvBn.factor, ConvBn.std]

/-! ### Frozen weights -/

/-- Fake-quantizing twice with the same parameters is fake-quantizing once. -/
theorem fq_idem (qmin qmax z : Int) (s x : ℝ) (hs : s ≠ 0) (hq : qmin ≤ qmax) :
    ((clampInt qmin qmax (z + roundEven ((((clampInt qmin qmax (z + roundEven (x * (1 / s))) - z : Int) : ℝ) * s) * (1 / s))) - z : Int) : ℝ) * s =
      ((clampInt qmin qmax (z + roundEven (x * (1 / s))) - z : Int) : ℝ) * s := by
  set c := clampInt qmin qmax (z + roundEven (x * (1 / s))) with hc
  have e : (((c - z : Int) : ℝ) * s) * (1 / s) = ((c - z : Int) : ℝ) := by field_simp
  rw [e, roundEven_int]
  have hb : qmin ≤ c ∧ c ≤ qmax := by
    rw [hc]; unfold clampInt; omega
  have : clampInt qmin qmax (z + (c - z)) = c := by unfold clampInt; omega
  rw [this]

/-- **C125**.  With observation switched off, a frozen weight is what the layer uses from then on: every later call gives the weight as fake-quantized when it was frozen, whatever the layer's
own weight has become. -/
theorem C125_frozen_partial {S I : Type} (observe : S → (I → ℝ) → S) (qparams : S → ℝ × Int) (m : Frozen S I) (w : I → ℝ) (ho : m.fq.observerEnabled = false) (hk : m.kept = none)
    (hs : m.fq.scale ≠ 0) (hq : m.fq.quantMin ≤ m.fq.quantMax) (later : List (I → ℝ)) (last : I → ℝ) :
    ((later.foldl (fun st v => (Frozen.call observe qparams st v).1) (freeze observe qparams m w)).call observe qparams last).2 = (m.call observe qparams w).2 := by
  have hfix : ∀ v : I → ℝ, (Frozen.call observe qparams (freeze observe qparams m w) v).1 = freeze observe qparams m w := by
    intro v
    unfold freeze Frozen.call superForward
    simp [ho]
  have hfold : ∀ l : List (I → ℝ), l.foldl (fun st v => (Frozen.call observe qparams st v).1) (freeze observe qparams m w) = freeze observe qparams m w := by
    intro l
    induction l with
    | nil => rfl
    | cons v r ih => rw [List.foldl_cons, hfix, ih]
  rw [hfold]
  unfold freeze Frozen.call superForward
  simp only [ho, hk, Bool.false_eq_true, if_false, Option.getD_none, Option.getD_some]
  cases hf : m.fq.fakeQuantEnabled with
  | false => rfl
  | true =>
    simp only [if_true]
    funext i
    exact fq_idem _ _ _ _ _ hs hq

/-- A per-tensor symmetric weight fake-quantizer with a moving average of the largest magnitude, over a weight with a single entry. -/
noncomputable def movingFq (state : ℝ) : Frozen ℝ Unit := ⟨⟨true, true, state, state / 127, 0, -127, 127⟩, none⟩

example : (movingFq 127).fq.scale ≠ 0 ∧ (movingFq 127).fq.quantMin ≤ (movingFq 127).fq.quantMax ∧ (movingFq 127).kept = none := by
  refine ⟨by norm_num [movingFq], by norm_num [movingFq], rfl⟩

/-- Freezing does not switch observation off, and a model prepared for training observes: the frozen weight keeps changing with every call. -/
theorem C125_frozen_false :
    let observe : ℝ → (Unit → ℝ) → ℝ := fun s x => s + (|x ()| - s) / 100
    let qparams : ℝ → ℝ × Int := fun s => (s / 127, 0)
    let m := freeze observe qparams (movingFq 127) (fun _ => 100)
    (m.call observe qparams (fun _ => 100)).2 () ≠ ((movingFq 127).call observe qparams (fun _ => 100)).2 () := by
  intro observe qparams m
  have r1 : roundEven ((100 : ℝ) * (1 / ((127 + (100 - 127) / 100) / 127))) = 100 := by
    have hf : ⌊((100 : ℝ) * (1 / ((127 + (100 - 127) / 100) / 127)))⌋ = 100 := by rw [Int.floor_eq_iff]; norm_num
    unfold roundEven
    rw [hf]
    norm_num
  have c1 : ((movingFq 127).call observe qparams (fun _ => 100)).2 () = 100 * ((127 + (100 - 127) / 100) / 127) := by
    simp only [movingFq, Frozen.call, superForward, observe, qparams, if_true, Option.getD_none]
    have : |(100 : ℝ)| = 100 := by norm_num
    rw [this]
    simp only [zero_add, r1]
    norm_num [clampInt]
  have r2 : roundEven ((100 * ((127 + (100 - 127) / 100) / 127) : ℝ) * (1 / (((127 + (100 - 127) / 100) + (100 * ((127 + (100 - 127) / 100) / 127) - (127 + (100 - 127) / 100)) / 100) / 127))) = 100 := by
    have hf : ⌊((100 * ((127 + (100 - 127) / 100) / 127) : ℝ) * (1 / (((127 + (100 - 127) / 100) + (100 * ((127 + (100 - 127) / 100) / 127) - (127 + (100 - 127) / 100)) / 100) / 127)))⌋ = 100 := by
      rw [Int.floor_eq_iff]; norm_num
    unfold roundEven
    rw [hf]
    norm_num
  have c2 : (m.call observe qparams (fun _ => 100)).2 () = 100 * (((127 + (100 - 127) / 100) + (100 * ((127 + (100 - 127) / 100) / 127) - (127 + (100 - 127) / 100)) / 100) / 127) := by
    have hm : m.kept = some (fun _ => 100 * ((127 + (100 - 127) / 100) / 127)) := by
      show some _ = some _
      congr 1
      funext u
      exact c1
    have hst : m.fq.observer = 127 + (100 - 127) / 100 := by
      simp only [m, freeze, movingFq, Frozen.call, superForward, observe, if_true, Option.getD_none]
      norm_num
    have hflags : m.fq.observerEnabled = true ∧ m.fq.fakeQuantEnabled = true ∧ m.fq.quantMin = -127 ∧ m.fq.quantMax = 127 := by
      simp [m, freeze, movingFq, Frozen.call, superForward]
    unfold Frozen.call superForward
    simp only [hflags.1, hflags.2.1, hflags.2.2.1, hflags.2.2.2, if_true, hm, Option.getD_some, hst, observe, qparams]
    have : |(100 * ((127 + (100 - 127) / 100) / 127) : ℝ)| = 100 * ((127 + (100 - 127) / 100) / 127) := by
      rw [abs_of_pos]; norm_num
    rw [this]
    simp only [zero_add, r2]
    norm_num [clampInt]
  rw [c1, c2]
  norm_num

end Verif.Props
