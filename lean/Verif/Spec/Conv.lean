import Verif.Spec.Window
import Mathlib.Analysis.Real.Sqrt

/-!
Convolution, transposed convolution, fully-connected layer and inference batch norm, in exact (real)
arithmetic, following PyTorch's definitions.  Independent of the converter.
-/

namespace Verif.Spec

/-- The bias of output channel `o`: absent, shared by all channels (one entry), or one per channel. -/
def biasAt {R : Type} [Zero R] : Option (List R) → Nat → R
  | none, _ => 0
  | some [v], _ => v
  | some l, o => l.getD o 0

/-- PyTorch convolution, output channel `o` at position `pos`.  `n` spatial axes, `cin` input channels per
group, `grp o` the group of output channel `o`, weight indexed `(o, i, κ...)`, zero padding `pad`.  With
`n = 0` this is a fully-connected layer. -/
def convOut {R : Type} [Semiring R] (n : Nat) (w : Window) (pad : Nat → Nat) (cin : Nat) (grp : Nat → Nat)
    (wt : Tensor R) (bias : Option (List R)) (x : Nat → Tensor R) (o : Nat) (pos : List Nat) : R :=
  biasAt bias o + ((kernelIdx w.kernel n).map (fun κ => ((List.range cin).map (fun i =>
    wt.get (o :: i :: κ) * getOr (x (grp o * cin + i)) 0 (readPos w pad n pos κ))).sum)).sum

/-- Where kernel position `κ` of a transposed convolution's output `pos` comes from: the input position
`p` with `p * stride + κ * dilation = pos + pad`, if there is one. -/
def deconvSrc (n : Nat) (w : Window) (pad : Nat → Nat) (pos κ : List Nat) : Option (List Int) :=
  if (List.range n).all (fun a => decide
      (((pos.getD a 0 + pad a : Nat) - (κ.getD a 0 * w.dilation a : Nat) : Int) % (w.stride a) = 0)) then
    some ((List.range n).map (fun a => ((pos.getD a 0 + pad a : Nat) - (κ.getD a 0 * w.dilation a : Nat) : Int) / (w.stride a)))
  else none

/-- PyTorch transposed convolution, weight indexed `(i, o within the group, κ...)`; `cin` input channels
and `cout` output channels per group. -/
def deconvOut {R : Type} [Semiring R] (n : Nat) (w : Window) (pad : Nat → Nat) (cin cout : Nat)
    (wt : Tensor R) (bias : Option (List R)) (x : Nat → Tensor R) (o : Nat) (pos : List Nat) : R :=
  biasAt bias o + ((kernelIdx w.kernel n).map (fun κ => ((List.range cin).map (fun i =>
    wt.get ((o / cout * cin + i) :: (o % cout) :: κ) *
      (match deconvSrc n w pad pos κ with
        | some p => getOr (x (o / cout * cin + i)) 0 p
        | none => 0))).sum)).sum

/-- Inference batch norm of channel `c`. -/
noncomputable def batchNorm (eps : ℝ) (scale shift mean var : List ℝ) (c : Nat) (v : ℝ) : ℝ :=
  (v - mean.getD c 0) / Real.sqrt (var.getD c 0 + eps) * scale.getD c 0 + shift.getD c 0

/-- TFLite CONV_2D / CONV_3D weights are indexed `(o, κ..., i)`. -/
def convNHWC {R : Type} [Semiring R] (n : Nat) (w : Window) (pad : Nat → Nat) (cin : Nat)
    (wt : Tensor R) (bias : List R) (x : Nat → Tensor R) (o : Nat) (pos : List Nat) : R :=
  bias.getD o 0 + ((kernelIdx w.kernel n).map (fun κ => ((List.range cin).map (fun i =>
    wt.get (o :: κ ++ [i]) * getOr (x i) 0 (readPos w pad n pos κ))).sum)).sum

end Verif.Spec
