import Verif.Spec.Window
import Verif.Spec.AxisOps
import Mathlib.Algebra.Order.Field.Basic

/-! A chain of two-dimensional convolutions with activations between them, in exact arithmetic. -/

namespace Verif.Spec
variable {K : Type} [Field K] [LinearOrder K]

/-- A convolution followed by an activation: weight `(o, i, κ)`, one bias per output channel, `groups` groups, output positions `outShape`; `gamma` and `beta` are the
parameters of the batch norm that was folded into it. -/
structure ConvLayer (K : Type) where
  wt : Tensor K
  bias : List K
  gamma : List K
  beta : List K
  groups : Nat
  win : Window
  pad : Nat → Nat
  outShape : List Nat
  act : K → K

/-- The result of the convolution before the activation, with the given bias. -/
def ConvLayer.conv (l : ConvLayer K) (bias : List K) (x : Nat → Tensor K) (o : Nat) : Tensor K where
  shape := l.outShape
  get := fun pos =>
    let cin := l.wt.shape.getD 1 0
    let group := o / (l.wt.shape.getD 0 0 / l.groups)
    bias.getD o 0 + ((kernelIdx l.win.kernel 2).map (fun κ => ((List.range cin).map (fun i =>
      l.wt.get (o :: i :: κ) * getOr (x (group * cin + i)) 0 (readPos l.win l.pad 2 pos κ))).sum)).sum

/-- The channels after the activation. -/
def ConvLayer.run (l : ConvLayer K) (bias : List K) (x : Nat → Tensor K) (o : Nat) : Tensor K where
  shape := l.outShape
  get := fun pos => l.act ((l.conv bias x o).get pos)

/-- Running the layers with the given biases one after another. -/
def runChain : List (ConvLayer K) → List (List K) → (Nat → Tensor K) → (Nat → Tensor K)
  | l :: ls, b :: bs, x => runChain ls bs (l.run b x)
  | _, _, x => x

/-- Every window position of the layer lies inside its input of spatial shape `s`. -/
def ConvLayer.ReadsInside (l : ConvLayer K) (s : List Nat) : Prop :=
  ∀ pos, InBounds l.outShape pos → ∀ κ ∈ kernelIdx l.win.kernel 2, (List.range s.length).all (fun a =>
    decide (0 ≤ (readPos l.win l.pad 2 pos κ).getD a 0 ∧ (readPos l.win l.pad 2 pos κ).getD a 0 < (s.getD a 0 : Nat))) = true

end Verif.Spec
