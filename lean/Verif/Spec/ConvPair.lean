import Mathlib.Data.Real.Basic
import Mathlib.Algebra.Module.Basic
import Mathlib.Algebra.Module.LinearMap.Defs
import Mathlib.Algebra.BigOperators.Group.Finset.Basic

/-!
Specification: a (grouped) convolution on feature maps.  A feature map is an element of a real vector space `M`; kernel position `t` is the
linear map `T t` (the shift, stride, dilation and zero padding of that position); `one` is the constant map.  A linear layer is a convolution
with one kernel position.
-/

namespace Verif.Spec

/-- Weights of a convolution with `groups` groups of `inPer` input and `outPer` output channels and `k` kernel positions. -/
structure ConvParams where
  groups : Nat
  inPer : Nat
  outPer : Nat
  k : Nat
  /-- output channel, input channel within the group, kernel position -/
  w : Nat → Nat → Nat → ℝ
  b : Option (Nat → ℝ)

variable {M : Type} [AddCommGroup M] [Module ℝ M]

/-- Output channel `o` of a convolution of the channels `x`. -/
def ConvParams.apply (p : ConvParams) (T : Nat → M →ₗ[ℝ] M) (one : M) (x : Nat → M) (o : Nat) : M :=
  (∑ i ∈ Finset.range p.inPer, ∑ t ∈ Finset.range p.k, p.w o i t • T t (x ((o / p.outPer) * p.inPer + i)))
    + (match p.b with | none => 0 | some b => b o • one)

/-- Positive homogeneity, channel by channel: ReLU, LeakyReLU, PReLU and the identity have it. -/
def PosHom (act : Nat → M → M) : Prop := ∀ (c : Nat) (a : ℝ) (m : M), 0 < a → act c (a • m) = a • act c m

/-- Two convolutions with an activation between them. -/
def pairApply (p q : ConvParams) (T U : Nat → M →ₗ[ℝ] M) (one : M) (act : Nat → M → M) (x : Nat → M) (o : Nat) : M :=
  q.apply U one (fun c => act c (p.apply T one x c)) o

end Verif.Spec
