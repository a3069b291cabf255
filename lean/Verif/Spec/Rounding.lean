import Mathlib.Data.Real.Basic
import Mathlib.Algebra.Order.Floor.Ring
import Mathlib.Algebra.Order.Archimedean.Real.Basic

/-! Rounding to the nearest integer with the two usual rules for ties.  Independent of the code. -/

namespace Verif.Spec

/-- `n` is a nearest integer to `r`. -/
def Nearest (r : ℝ) (n : ℤ) : Prop := |r - n| ≤ 1 / 2

/-- `n` is `r` rounded to nearest, ties away from zero (TFLite). -/
def NearestAway (r : ℝ) (n : ℤ) : Prop := Nearest r n ∧ (|r - n| = 1 / 2 → |r| < |(n : ℝ)|)

/-- `n` is `r` rounded to nearest, ties to even (PyTorch's `round` and `nearbyint`). -/
def NearestEven (r : ℝ) (n : ℤ) : Prop := Nearest r n ∧ (|r - n| = 1 / 2 → Even n)

end Verif.Spec
