import Mathlib.Algebra.Group.Defs

/-!
Specification of the cost of a network: the number of multiply-accumulate (or elementwise) operations of a layer, in terms of its sizes.
`n` is the batch size and `s` the number of spatial positions (of the output for convolutions, of the input otherwise).
-/

namespace Verif.Spec

/-- A layer and its sizes. -/
inductive Layer where
  /-- `groups` groups with `inPer` input channels each, `outC` output channels, `k` kernel positions. -/
  | conv (n s groups inPer outC k : Nat) (bias : Bool)
  /-- depthwise: `c` channels, one per group -/
  | depthwise (n s c k : Nat) (bias : Bool)
  | batchNorm (n s c : Nat)
  | avgPool (n s c : Nat)
  | relu (n s c : Nat)
  | linear (n inF outF : Nat)
  /-- any other operator: free of charge -/
  | other
deriving DecidableEq

/-- What a layer costs. -/
def Layer.flops : Layer → Nat
  | .conv n s _ inPer outC k bias => (n * outC * s) * (inPer * k + if bias then 1 else 0)
  | .depthwise n s c k bias => (n * c * s) * (k + if bias then 1 else 0)
  | .batchNorm n s c => 2 * (n * c * s)
  | .avgPool n s c => n * c * s
  | .relu n s c => n * c * s
  | .linear n inF outF => n * outF * inF
  | .other => 0

/-- The layer after `a` of its input channels and `b` of its output channels have been taken out (for layers that act channel by channel
`a` and `b` are the same channels; the groups of a convolution lose the same number of channels each). -/
def Layer.shrink (a b : Nat) : Layer → Layer
  | .conv n s groups inPer outC k bias => .conv n s groups (inPer - a / groups) (outC - b) k bias
  | .depthwise n s c k bias => .depthwise n s (c - a) k bias
  | .batchNorm n s c => .batchNorm n s (c - a)
  | .avgPool n s c => .avgPool n s (c - a)
  | .relu n s c => .relu n s (c - a)
  | .linear n inF outF => .linear n (inF - a) (outF - b)
  | .other => .other

/-- At least one channel is left everywhere, and groups lose the same number of channels. -/
def Layer.CanLose (a b : Nat) : Layer → Prop
  | .conv _ _ groups inPer outC _ _ => groups ∣ a ∧ a < groups * inPer ∧ b < outC
  | .depthwise _ _ c _ _ => a = b ∧ a < c
  | .batchNorm _ _ c => a < c
  | .avgPool _ _ c => a < c
  | .relu _ _ c => a < c
  | .linear _ inF outF => a < inF ∧ b < outF
  | .other => True

end Verif.Spec
