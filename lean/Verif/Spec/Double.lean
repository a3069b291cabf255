import Mathlib.Data.Rat.Defs
import Mathlib.Algebra.Order.Field.Rat
import Mathlib.Algebra.Order.Group.Int
import Mathlib.Algebra.Ring.Int.Parity

/-! IEEE-754 binary64 rounding of positive rationals, to nearest with ties to even.  Overflow and subnormal numbers are left out (the
exponent is unbounded), which is immaterial for the integers and fractions of array sizes it is used for. -/

namespace Verif.Spec

/-- `y` is `x > 0` rounded to a significand of 53 bits: with `e` the exponent for which `2^52 ≤ x/2^e < 2^53`, `y` is `m * 2^e` for the
integer `m` nearest to `x / 2^e`, the even one on a tie. -/
def RoundsTo (x y : ℚ) : Prop :=
  ∃ (e m : ℤ), (2 : ℚ) ^ (52 : ℕ) * (2 : ℚ) ^ e ≤ x ∧ x < (2 : ℚ) ^ (53 : ℕ) * (2 : ℚ) ^ e ∧
    |x / (2 : ℚ) ^ e - m| ≤ 1 / 2 ∧ (|x / (2 : ℚ) ^ e - m| = 1 / 2 → Even m) ∧ y = m * (2 : ℚ) ^ e

/-- `fl` is the rounding of the floating-point unit on non-negative rationals. -/
def IsDouble (fl : ℚ → ℚ) : Prop := fl 0 = 0 ∧ ∀ x, 0 < x → RoundsTo x (fl x)

end Verif.Spec
