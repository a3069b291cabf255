import Mathlib.Analysis.SpecialFunctions.Log.Basic
import Mathlib.Analysis.SpecialFunctions.Trigonometric.DerivHyp
import Verif.Spec.Tensor

/-! Specification for C78: PyTorch's activation functions on real numbers, with their parameters. -/

namespace Verif.Spec.Activation

/-- `torch.clamp(x, min, max)`; either bound may be missing, and the upper bound wins when they cross. -/
noncomputable def clamp (lo hi : Option ℝ) (x : ℝ) : ℝ :=
  let y := match lo with | some a => max x a | none => x
  match hi with | some b => min y b | none => y

/-- `nn.Hardtanh(min_val, max_val)`. -/
noncomputable def hardtanh (lo hi x : ℝ) : ℝ := if x < lo then lo else if hi < x then hi else x

/-- `nn.Hardsigmoid`: 0 below −3, 1 above 3, `x / 6 + 1 / 2` between. -/
noncomputable def hardsigmoid (x : ℝ) : ℝ := if x ≤ -3 then 0 else if 3 ≤ x then 1 else x / 6 + 1 / 2

/-- The logistic function. -/
noncomputable def sigmoid (x : ℝ) : ℝ := 1 / (1 + Real.exp (-x))

/-- `nn.SiLU`. -/
noncomputable def silu (x : ℝ) : ℝ := x * sigmoid x

/-- `nn.Softplus(beta, threshold)`: linear above the threshold. -/
noncomputable def softplus (beta threshold x : ℝ) : ℝ :=
  if threshold < beta * x then x else 1 / beta * Real.log (1 + Real.exp (beta * x))

/-- `nn.Mish`. -/
noncomputable def mish (x : ℝ) : ℝ := x * Real.tanh (Real.log (1 + Real.exp x))

/-- `nn.ELU(alpha)` and SELU/CELU: `scale * (max(0, x) + min(0, alpha * (exp(input_scale * x) − 1)))` by cases. -/
noncomputable def elu (alpha scale inputScale x : ℝ) : ℝ :=
  if 0 < x then scale * x else scale * alpha * (Real.exp (inputScale * x) - 1)

/-- `nn.PReLU` with one slope per channel (axis 1) or a single slope. -/
noncomputable def prelu (alpha : List ℝ) (t : Tensor ℝ) : Tensor ℝ where
  shape := t.shape
  get := fun idx =>
    let a := if alpha.length = 1 then alpha.getD 0 0 else alpha.getD (idx.getD 1 0) 0
    if 0 < t.get idx then t.get idx else a * t.get idx

/-- The formula of `nn.GELU`: the exact one with the normal distribution, or the approximation with tanh. -/
inductive Gelu | exact | tanh
  deriving DecidableEq

/-- `nn.GELU(approximate=...)`. -/
def gelu : String → Gelu
  | "tanh" => .tanh
  | _ => .exact

/-- `nn.GLU(dim)`: first half times the logistic function of the second half. -/
noncomputable def glu (dim : Nat) (t : Tensor ℝ) : Tensor ℝ where
  shape := t.shape.set dim (t.shape.getD dim 0 / 2)
  get := fun idx => t.get idx * sigmoid (t.get (idx.set dim (idx.getD dim 0 + t.shape.getD dim 0 / 2)))

end Verif.Spec.Activation
