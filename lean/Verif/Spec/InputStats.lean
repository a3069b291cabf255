import Mathlib.Algebra.Order.Field.Rat
import Mathlib.Data.Rat.Cast.Order

/-!
Quantization parameters over exact numbers: the number a stored integer stands for, and what PyTorch's observers make of a range (`_calculate_qparams`).
-/

namespace Verif.Spec.InputStats

/-- Rounding to a nearest integer. -/
def Nearest (rnd : ℚ → ℤ) : Prop := ∀ x, |(rnd x : ℚ) - x| ≤ 1 / 2

/-- The number the integer `q` stands for. -/
def value (scale : ℚ) (zp q : ℤ) : ℚ := ((q : ℚ) - zp) * scale

/-- Normalizing an image. -/
def normalize (mean std q : ℚ) : ℚ := (q - mean) / std

/-- Scale and zero point of an observer with an affine scheme that has seen numbers from `mn` to `mx`. -/
def affine (rnd : ℚ → ℤ) (eps : ℚ) (lo hi : ℤ) (mn mx : ℚ) : ℚ × ℤ :=
  let s := max ((max mx 0 - min mn 0) / ((hi : ℚ) - lo)) eps
  (s, max lo (min hi (lo - rnd (min mn 0 / s))))

/-- The same with a symmetric scheme; `mid` is its zero point. -/
def symmetric (mid : ℤ) (eps : ℚ) (lo hi : ℤ) (mn mx : ℚ) : ℚ × ℤ := (max (max (-(min mn 0)) (max mx 0) / (((hi : ℚ) - lo) / 2)) eps, mid)

end Verif.Spec.InputStats
