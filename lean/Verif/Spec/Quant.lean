import Mathlib.Data.Real.Basic
import Mathlib.Algebra.Order.Group.Unbundled.Abs
import Mathlib.Algebra.Order.Group.Abs

/-! Affine quantization: what a stored integer means, and what rounding must do.  Independent of the converter. -/

namespace Verif.Spec

/-- The real number represented by the stored integer `q`. -/
def dequant (scale : ℝ) (zeroPoint q : Int) : ℝ := scale * ((q : ℝ) - zeroPoint)

/-- A rounding mode that returns a nearest integer; how ties are broken is left open. -/
def IsNearest (rnd : ℝ → Int) : Prop := ∀ x : ℝ, |(rnd x : ℝ) - x| ≤ 1 / 2

/-- Storage ranges. -/
def InU8 (q : Int) : Prop := 0 ≤ q ∧ q ≤ 255
def InI8 (q : Int) : Prop := -128 ≤ q ∧ q ≤ 127
def InI16 (q : Int) : Prop := -32768 ≤ q ∧ q ≤ 32767

end Verif.Spec
