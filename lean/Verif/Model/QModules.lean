import Verif.Spec.QModules
import Verif.Spec.Broadcast

/-!
Model of the replacements for layers without a quantized counterpart, tinynn/graph/quantization/modules.py, before quantization: `QuantStub` and `DeQuantStub` return their argument and
the methods of `FloatFunctional` are the float operations. `rsqrt` is a parameter. An exception is `none`.
-/

namespace Verif.Model.QModules
open Verif.Spec

noncomputable def relu (x : ℝ) : ℝ := max x 0

/-- 7-49 `QPReLU`; `w` is the weight, a tensor with one axis. -/
noncomputable def qPReLU (w x : Tensor ℝ) : Option (Tensor ℝ) := do
  let x1 := mapTensor relu x
  let weight := if w.shape.prod = 1 then reshape [] w else reshape (w.shape ++ List.replicate (x.shape.length - 2) 1) w
  let x2 ← elementwise (· * ·) weight (mapTensor (· * (-1)) (mapTensor relu (mapTensor (· * (-1)) x)))
  elementwise (· + ·) x1 x2

/-- 52-60 `QSiLU`. -/
noncomputable def qSiLU (x : Tensor ℝ) : Option (Tensor ℝ) := elementwise (· * ·) x (mapTensor Activation.sigmoid x)

/-- `torch.chunk(x, 2, a)`: parts of `ceil(n / 2)` positions, the last one shorter; a single part for an axis of size 1. -/
def chunk2 (a : Nat) (x : Tensor ℝ) : List (Tensor ℝ) :=
  let n := x.shape.getD a 0
  let c := (n + 1) / 2
  splitPart a 0 c x :: (if n = 1 then [] else [splitPart a c (n - c) x])

/-- 63-74 `QGLU`, with the axis counted from the front. -/
noncomputable def qGLU (a : Nat) (x : Tensor ℝ) : Option (Tensor ℝ) := do
  let s0 ← (chunk2 a x)[0]?
  let s1 ← (chunk2 a x)[1]?
  elementwise (· * ·) s0 (mapTensor Activation.sigmoid s1)

/-- 77-93 `QHardsigmoid`. -/
noncomputable def qHardsigmoid (x : Tensor ℝ) : Tensor ℝ :=
  mapTensor (· * (1 / 6)) (mapTensor (fun v => min (relu v) 6) (mapTensor (· + 3) x))

variable {K : Type} [Field K]

/-- `t.expand_as(like)`. -/
def expandAs (t like : Tensor K) : Option (Tensor K) := if bcShape t.shape like.shape = some like.shape then some ⟨like.shape, bcGet t⟩ else none

/-- 99, 149: `tuple(range(-k, 0))`, counted from the front. -/
def meanDims (k rank : Nat) : List Nat := (List.range k).map (fun i => rank - (k - i))

/-- 96-142 `QLayerNorm`; the constructor reads `weight.data` and `bias.data`. -/
def qLayerNorm (rsqrt : K → K) (eps : K) (k : Nat) (w b : Option (Tensor K)) (x : Tensor K) : Option (Tensor K) := do
  let w ← w
  let b ← b
  let mean := reduceKeep (meanDims k x.shape.length) avg x
  let neg ← expandAs (mapTensor (· * (-1)) mean) x
  let diff ← elementwise (· + ·) x neg
  let sq ← elementwise (· * ·) diff diff
  let var := reduceKeep (meanDims k x.shape.length) avg sq
  let stdInverse := mapTensor rsqrt (mapTensor (· + eps) var)
  let norm ← elementwise (· * ·) diff stdInverse
  let w' ← expandAs w norm
  let normAlpha ← elementwise (· * ·) norm w'
  let b' ← expandAs b normAlpha
  elementwise (· + ·) normAlpha b'

/-- 145-183 `QRMSNorm`; without `eps` nothing is added. -/
def qRMSNorm (rsqrt : K → K) (eps : Option K) (k : Nat) (w : Option (Tensor K)) (x : Tensor K) : Option (Tensor K) := do
  let w ← w
  let sq ← elementwise (· * ·) x x
  let mean := reduceKeep (meanDims k x.shape.length) avg sq
  let pre := match eps with
    | none => mean
    | some e => mapTensor (· + e) mean
  let norm ← elementwise (· * ·) x (mapTensor rsqrt pre)
  let w' ← expandAs w norm
  elementwise (· * ·) norm w'

end Verif.Model.QModules
