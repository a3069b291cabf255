import Verif.Model.QatFold
import Mathlib.Tactic.Linarith
import Mathlib.Tactic.Ring
import Mathlib.Tactic.Module
import Mathlib.Tactic.FieldSimp
import Mathlib.Tactic.NormNum
import Mathlib.Algebra.Module.BigOperators

/-!
C36: folding batch norm into a convolution during quantization-aware training and before post-training quantization.
-/

namespace Verif.Props
open Verif.Model Verif.Spec

variable {M : Type} [AddCommGroup M] [Module ℝ M]

/-- **C36** A convolution (any groups, with or without bias) followed by batch norm: the fused weight and bias are accepted and define the same
function. -/
theorem C36_conv_bn (p : ConvParams) (bn : BnParams) (hbn : bn.channels = p.groups * p.outPer) (hg : 0 < p.groups) :
    ∃ p', (fuseConvBn (convWeight p) p.b bn false).bind (asConv p.groups (p.groups * p.inPer)) = some p'
      ∧ ∀ (T : Nat → M →ₗ[ℝ] M) (one : M) (x : Nat → M) (o : Nat), o < p.groups * p.outPer →
          p'.apply T one x o = bn.apply one o (p.apply T one x o) := by
  refine ⟨⟨p.groups, p.inPer, p.outPer, p.k,
      fun a b t => p.w (bidx (p.groups * p.outPer) a) b t * (bn.gamma (bidx bn.channels a) * bn.rs (bidx bn.channels a)),
      some (fun c => (biasOr0 p.b c - bn.mean c) * bn.rs c * bn.gamma c + bn.beta c)⟩, ?_, ?_⟩
  · have h1 : p.inPer * p.groups = p.groups * p.inPer := Nat.mul_comm _ _
    have h2 : p.groups * p.outPer / p.groups = p.outPer := Nat.mul_div_cancel_left _ hg
    simp [fuseConvBn, mulDim0, convWeight, bcast, hbn, asConv, h1, h2]
  · intro T one x o ho
    have hb : bidx (p.groups * p.outPer) o = o := by unfold bidx; split <;> omega
    simp only [ConvParams.apply, BnParams.apply, hbn, hb, smul_sub, smul_add, Finset.smul_sum, smul_smul]
    have : ∀ (i t : Nat) (m : M), (p.w o i t * (bn.gamma o * bn.rs o)) • m = (bn.rs o * bn.gamma o * p.w o i t) • m := by
      intro i t m; congr 1; ring
    simp only [this]
    cases hpb : p.b <;> simp only [biasOr0] <;> module

/-- Two groups of one input and one output channel, bias, non-trivial statistics: the hypotheses are met. -/
example : ∃ (p : ConvParams) (bn : BnParams), bn.channels = p.groups * p.outPer ∧ 0 < p.groups ∧ p.groups = 2 ∧ bn.mean 1 = 3 :=
  ⟨⟨2, 1, 1, 9, fun o _ t => o + t, some (fun _ => 1)⟩, ⟨2, fun _ => 3, fun _ => 1 / 2, some (fun _ => 2), none⟩, rfl, by norm_num, rfl, rfl⟩

/-- **C36** A transposed convolution with one group followed by batch norm. -/
theorem C36_deconv_bn_partial (p : DeconvParams) (bn : BnParams) (hg : p.groups = 1) (hbn : bn.channels = p.outPer) :
    ∃ p', (fuseConvBn (deconvWeight p) p.b bn true).bind (asDeconv 1 p.inPer p.outPer) = some p'
      ∧ ∀ (T : Nat → M →ₗ[ℝ] M) (one : M) (x : Nat → M) (o : Nat), o < p.outPer →
          p'.apply T one x o = bn.apply one o (p.apply T one x o) := by
  refine ⟨⟨1, p.inPer, p.outPer, p.k,
      fun a b t => p.w a (bidx p.outPer b) t * (bn.gamma (bidx bn.channels b) * bn.rs (bidx bn.channels b)),
      some (fun c => (biasOr0 p.b c - bn.mean c) * bn.rs c * bn.gamma c + bn.beta c)⟩, ?_, ?_⟩
  · simp [fuseConvBn, mulDim1, deconvWeight, bcast, hbn, asDeconv, hg]
  · intro T one x o ho
    have hb : bidx p.outPer o = o := by unfold bidx; split <;> omega
    have hmod : o % p.outPer = o := Nat.mod_eq_of_lt ho
    simp only [DeconvParams.apply, BnParams.apply, hbn, hmod, hb, smul_sub, smul_add, Finset.smul_sum, smul_smul]
    have : ∀ (i t : Nat) (m : M), (p.w i o t * (bn.gamma o * bn.rs o)) • m = (bn.rs o * bn.gamma o * p.w i o t) • m := by
      intro i t m; congr 1; ring
    simp only [this]
    cases hpb : p.b <;> simp only [biasOr0] <;> module

/-- With groups it fails: two groups of two output channels give a shape error; a depthwise transposed convolution gives a weight of the wrong
shape, which PyTorch rejects. -/
theorem C36_grouped_deconv_false :
    (∃ (p : DeconvParams) (bn : BnParams), bn.channels = p.groups * p.outPer ∧ fuseConvBn (deconvWeight p) p.b bn true = none)
    ∧ ∃ (p : DeconvParams) (bn : BnParams), bn.channels = p.groups * p.outPer ∧ p.inPer = 1 ∧ p.outPer = 1
      ∧ (fuseConvBn (deconvWeight p) p.b bn true).bind (asDeconv p.groups p.groups p.groups) = none := by
  refine ⟨⟨⟨2, 1, 2, 1, fun _ _ _ => 1, none⟩, ⟨4, fun _ => 0, fun _ => 1, none, none⟩, rfl, ?_⟩,
    ⟨⟨3, 1, 1, 1, fun _ _ _ => 1, none⟩, ⟨3, fun _ => 0, fun _ => 1, none, none⟩, rfl, rfl, rfl, ?_⟩⟩
  · simp [fuseConvBn, mulDim1, deconvWeight, bcast]
  · simp [fuseConvBn, mulDim1, deconvWeight, bcast, asDeconv]

/-- It fails for every transposed convolution with more than one group. -/
theorem C36_grouped_deconv (p : DeconvParams) (bn : BnParams) (hg : 1 < p.groups) (ho : 0 < p.outPer) (hbn : bn.channels = p.groups * p.outPer) :
    (fuseConvBn (deconvWeight p) p.b bn true).bind (asDeconv p.groups (p.groups * p.inPer) (p.groups * p.outPer)) = none := by
  have hlt : p.outPer < p.groups * p.outPer := by
    calc p.outPer = 1 * p.outPer := (Nat.one_mul _).symm
      _ < p.groups * p.outPer := Nat.mul_lt_mul_of_pos_right hg ho
  have h1 : p.outPer ≠ p.groups * p.outPer := by omega
  have h3 : p.groups * p.outPer ≠ 1 := by omega
  by_cases h2 : p.outPer = 1
  · have h4 : p.groups * p.groups ≠ p.groups := by
      intro h
      have := Nat.eq_of_mul_eq_mul_left (show 0 < p.groups by omega) (h.trans (Nat.mul_one _).symm)
      omega
    simp only [fuseConvBn, mulDim1, deconvWeight, bcast, hbn, if_neg h1, if_pos h2, if_true, Option.map_some, Option.bind_some, asDeconv]
    rw [if_neg]
    rintro ⟨_, _, h⟩
    rw [h2, Nat.mul_one] at h
    exact h4 h
  · simp only [fuseConvBn, mulDim1, deconvWeight, bcast, hbn, if_neg h1, if_neg h2, if_neg h3, if_true, Option.map_none, Option.bind_none]

/-- **C36** Batch norm followed by a convolution with one group and without padding (every kernel position maps the constant map to itself). -/
theorem C36_bn_conv_partial (p : ConvParams) (bn : BnParams) (hg : p.groups = 1) (hbn : bn.channels = p.inPer) (T : Nat → M →ₗ[ℝ] M) (one : M)
    (hT : ∀ t, T t one = one) :
    ∃ p', (fuseBnConv (convWeight p) p.b bn).bind (asConv 1 p.inPer) = some p'
      ∧ ∀ (x : Nat → M) (o : Nat), o < p.outPer → p'.apply T one x o = p.apply T one (fun c => bn.apply one c (x c)) o := by
  refine ⟨⟨1, p.inPer, p.outPer, p.k,
      fun a b t => p.w a (bidx p.inPer b) t * (bn.gamma (bidx bn.channels b) * bn.rs (bidx bn.channels b)),
      some (fun o => biasOr0 p.b o + ∑ i ∈ Finset.range p.inPer,
        (∑ t ∈ Finset.range p.k, p.w o i t) * (bn.beta i - bn.mean i * bn.rs i * bn.gamma i))⟩, ?_, ?_⟩
  · have hne : ¬ (p.inPer = 1 ∧ 1 < p.inPer) := by omega
    simp [fuseBnConv, bnConvOffset, mulDim1, convWeight, bcast, hbn, asConv, hg, hne, kernelSum]
  · intro x o ho
    have hdiv : o / p.outPer = 0 := Nat.div_eq_of_lt ho
    have hb : ∀ i ∈ Finset.range p.inPer, bidx p.inPer i = i := by
      intro i hi
      have := Finset.mem_range.mp hi
      unfold bidx; split <;> omega
    simp only [ConvParams.apply, hdiv, Nat.zero_mul, Nat.zero_add, BnParams.apply, hbn]
    simp only [map_add, map_smul, map_sub, hT]
    have hbias : ∀ S S' B : M, S + B = S' → ∀ (c : ℝ) (D : M), c • one = D → S + (c • one + B) = S' + D := by
      intro S S' B h c D hc
      rw [← h, hc, add_comm D B, ← add_assoc]
    rw [add_smul, Finset.sum_smul]
    refine hbias _ _ _ ?_ _ _ (by cases hpb : p.b <;> simp [biasOr0])
    rw [← Finset.sum_add_distrib]
    refine Finset.sum_congr rfl (fun i hi => ?_)
    rw [hb i hi, Finset.sum_mul, Finset.sum_smul, ← Finset.sum_add_distrib]
    refine Finset.sum_congr rfl (fun t _ => ?_)
    module

/-- A three-channel 1x1 convolution meets the hypotheses. -/
example : ∃ (p : ConvParams) (bn : BnParams) (T : Nat → ℝ →ₗ[ℝ] ℝ), p.groups = 1 ∧ bn.channels = p.inPer ∧ p.inPer = 3 ∧ (∀ t, T t 1 = 1) :=
  ⟨⟨1, 3, 2, 1, fun _ _ _ => 1, none⟩, ⟨3, fun _ => 1, fun _ => 1, none, none⟩, fun _ => LinearMap.id, rfl, rfl, rfl, fun _ => rfl⟩

/-- With zero padding it fails.  One channel, one kernel position which at the (single) output point looks at the padding: the batch norm's shift
is added although the convolution sees a zero there. -/
theorem C36_bn_conv_padding_false : ∃ (p p' : ConvParams) (bn : BnParams) (T : Nat → ℝ →ₗ[ℝ] ℝ) (x : Nat → ℝ),
    bn.channels = p.inPer ∧ (fuseBnConv (convWeight p) p.b bn).bind (asConv 1 p.inPer) = some p'
      ∧ p'.apply T 1 x 0 = 5 ∧ p.apply T 1 (fun c => bn.apply 1 c (x c)) 0 = 0 := by
  refine ⟨⟨1, 1, 1, 1, fun _ _ _ => 1, none⟩,
    ⟨1, 1, 1, 1, fun a b t => 1 * (1 * 1), some (fun o => 0 + ∑ i ∈ Finset.range 1, 1 * (5 - 0))⟩,
    ⟨1, fun _ => 0, fun _ => 1, none, some (fun _ => 5)⟩, fun _ => 0, fun _ => 0, rfl, ?_, ?_, ?_⟩
  · simp [fuseBnConv, bnConvOffset, mulDim1, convWeight, bcast, asConv, BnParams.gamma, BnParams.beta, kernelSum, biasOr0]
  · norm_num [ConvParams.apply]
  · norm_num [ConvParams.apply]

/-- For a depthwise convolution the fused weight has the wrong shape, and PyTorch rejects it. -/
theorem C36_bn_depthwise_false : ∃ (p : ConvParams) (bn : BnParams), p.inPer = 1 ∧ p.outPer = 1 ∧ bn.channels = p.groups
    ∧ (fuseBnConv (convWeight p) p.b bn).bind (asConv p.groups p.groups) = none := by
  refine ⟨⟨3, 1, 1, 1, fun _ _ _ => 1, none⟩, ⟨3, fun _ => 0, fun _ => 1, none, none⟩, rfl, rfl, rfl, ?_⟩
  simp [fuseBnConv, bnConvOffset, mulDim1, convWeight, bcast, asConv]

/-- **C36** The forward pass of the quantization-aware transposed convolution, with fake quantization off, is the transposed convolution followed
by batch norm, at every channel whose batch-norm scale is not zero. -/
theorem C36_qat_forward_partial (p : DeconvParams) (bn : BnParams) (_hg : p.groups = 1) (T : Nat → M →ₗ[ℝ] M) (one : M) (x : Nat → M) (o : Nat)
    (ho : o < p.outPer) (hs : bn.gamma o * bn.rs o ≠ 0) :
    qatDeconvForward p bn T one x o = some (bn.apply one o (p.apply T one x o)) := by
  have hmod : o % p.outPer = o := Nat.mod_eq_of_lt ho
  unfold qatDeconvForward
  simp only [hs, if_false]
  congr 2
  have hsum : (bn.gamma o * bn.rs o)⁻¹ • ({ p with w := fun i c t => p.w i c t * (bn.gamma c * bn.rs c), b := none } : DeconvParams).apply T one x o
      = ({ p with b := none } : DeconvParams).apply T one x o := by
    simp only [DeconvParams.apply, hmod, add_zero, Finset.smul_sum, smul_smul]
    refine Finset.sum_congr rfl (fun i _ => Finset.sum_congr rfl (fun t _ => ?_))
    congr 1
    rw [mul_comm (p.w _ _ _), ← mul_assoc, inv_mul_cancel₀ hs, one_mul]
  rw [hsum]
  cases hb : p.b with
  | none => simp [DeconvParams.apply, hb]
  | some b => simp [DeconvParams.apply, hb]

/-- A channel whose batch-norm weight is zero gives NaN instead of the constant shift. -/
theorem C36_qat_zero_gamma_false : ∃ (p : DeconvParams) (bn : BnParams), p.groups = 1
    ∧ qatDeconvForward p bn (fun _ => LinearMap.id) (1 : ℝ) (fun _ => 1) 0 = none
    ∧ bn.apply (1 : ℝ) 0 (p.apply (fun _ => LinearMap.id) 1 (fun _ => 1) 0) = 7 := by
  refine ⟨⟨1, 1, 1, 1, fun _ _ _ => 1, none⟩, ⟨1, fun _ => 0, fun _ => 1, some (fun _ => 0), some (fun _ => 7)⟩, rfl, ?_, ?_⟩
  · simp [qatDeconvForward, BnParams.gamma]
  · simp [BnParams.apply, BnParams.gamma, BnParams.beta]

end Verif.Props
