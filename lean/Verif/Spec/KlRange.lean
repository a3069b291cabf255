import Mathlib.Algebra.Order.Field.Rat
import Mathlib.Algebra.BigOperators.Group.Finset.Basic
import Mathlib.Data.Rat.Cast.Order
import Mathlib.Order.Interval.Finset.Nat

/-!
Regrouping a histogram: cutting the first `i` bins into `T` equal parts, spreading each part over its non-empty bins, folding what lies behind into the last
bin; and the value of a divergence.  Independent of the observer.
-/

namespace Verif.Spec.KlRange

/-- How much of bin `k` (from `k` to `k + 1`) lies in part `j` when the range from 0 to `i` is cut into `T` equal parts. -/
def overlap (T i j k : ℕ) : ℚ := max 0 (min (((j : ℚ) + 1) * (i / T)) (k + 1) - max ((j : ℚ) * (i / T)) k)

/-- The content of part `j`: every bin counts as far as it lies in the part. -/
def part (T i : ℕ) (h : ℕ → ℚ) (j : ℕ) : ℚ := ∑ k ∈ Finset.range i, overlap T i j k * h k

/-- 1 for a bin that is not empty. -/
def filled (h : ℕ → ℚ) (k : ℕ) : ℚ := if h k = 0 then 0 else 1

/-- Bin `k` after every part has been spread evenly over its non-empty bins. -/
def spread (T i : ℕ) (h : ℕ → ℚ) (k : ℕ) : ℚ :=
  ∑ j ∈ Finset.range T, part T i h j / part T i (filled h) j * (overlap T i j k * filled h k)

/-- The first `i` of `n` bins, with all that lies behind them added to the last one. -/
def folded (n i : ℕ) (h : ℕ → ℚ) (k : ℕ) : ℚ := if k + 1 = i then h k + ∑ x ∈ Finset.Ico i n, h x else h k

/-- The value of a divergence: a number, infinity or not a number. -/
inductive Div | num (x : ℚ) | inf | nan
deriving DecidableEq

/-- `<` of floating point numbers. -/
def Div.lt : Div → Div → Bool
  | .num x, .num y => decide (x < y)
  | .num _, .inf => true
  | _, _ => false

end Verif.Spec.KlRange
