import Verif.Spec.ScalarOps

/-! `torch.pow` and `torch.reciprocal` at one element, and TFLite's POW and DIV.  Numbers are exact; `pw` is the power function of floating-point numbers. -/

namespace Verif.Spec.PowLower
open Verif.Spec

/-- A power function multiplies for whole exponents that are not negative. -/
def Power (pw : ℚ → ℚ → ℚ) : Prop := ∀ (x : ℚ) (n : ℕ), pw x n = x ^ n

/-- `torch.pow(x, e)`: whole numbers stay whole, and PyTorch refuses to raise them to a negative whole power; otherwise the result is a floating-point number. -/
def torchPow (pw : ℚ → ℚ → ℚ) : Num → Num → Option ℚ
  | .int x, .int e => if e < 0 then none else some ((x ^ e.toNat : ℤ) : ℚ)
  | x, e => some (pw x.val e.val)

/-- TFLite's POW: both operands have the same type, and whole exponents must not be negative. -/
def tflPow (pw : ℚ → ℚ → ℚ) : Num → Num → Option ℚ
  | .int x, .int e => if e < 0 then none else some ((x ^ e.toNat : ℤ) : ℚ)
  | .flt x, .flt e => some (pw x e)
  | _, _ => none

/-- The element types of tensors. -/
inductive Dtype | float32 | float64 | int32 | int64
  deriving DecidableEq

end Verif.Spec.PowLower
