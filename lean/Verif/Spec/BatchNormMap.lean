import Verif.Spec.ConvPair

/-!
Specification: batch norm in evaluation mode on feature maps (see `Verif.Spec.ConvPair`), and transposed convolutions.
-/

namespace Verif.Spec

variable {M : Type} [AddCommGroup M] [Module ℝ M]

/-- Batch norm with `rs c = 1 / sqrt (variance c + eps)`; a missing weight is one, a missing bias zero. -/
structure BnParams where
  channels : Nat
  mean : Nat → ℝ
  rs : Nat → ℝ
  weight : Option (Nat → ℝ)
  bias : Option (Nat → ℝ)

def BnParams.gamma (bn : BnParams) (c : Nat) : ℝ := match bn.weight with | none => 1 | some g => g c
def BnParams.beta (bn : BnParams) (c : Nat) : ℝ := match bn.bias with | none => 0 | some b => b c

/-- Channel `c` of the normalised map. -/
def BnParams.apply (bn : BnParams) (one : M) (c : Nat) (m : M) : M := (bn.rs c * bn.gamma c) • (m - bn.mean c • one) + bn.beta c • one

/-- Weights of a transposed convolution: input channel, output channel within the group, kernel position. -/
structure DeconvParams where
  groups : Nat
  inPer : Nat
  outPer : Nat
  k : Nat
  w : Nat → Nat → Nat → ℝ
  b : Option (Nat → ℝ)

/-- Output channel `o` of a transposed convolution. -/
def DeconvParams.apply (p : DeconvParams) (T : Nat → M →ₗ[ℝ] M) (one : M) (x : Nat → M) (o : Nat) : M :=
  (∑ i ∈ Finset.range p.inPer, ∑ t ∈ Finset.range p.k,
    p.w ((o / p.outPer) * p.inPer + i) (o % p.outPer) t • T t (x ((o / p.outPer) * p.inPer + i)))
    + (match p.b with | none => 0 | some b => b o • one)

end Verif.Spec
