import Verif.Spec.KlRange
import Mathlib.Algebra.Order.Floor.Defs
import Mathlib.Data.Rat.Floor

/-!
Model of `HistogramObserverKL` (`tinynn/graph/quantization/observer.py:39-151`) over exact rational numbers.  `T` is the number of bins after merging (128), a
histogram is a function that is 0 from its size on.  The divergence itself (`F.kl_div`) is a parameter.
-/

namespace Verif.Model.KlRange
open Verif.Spec.KlRange

/-- `bin_interval` (observer.py:79). -/
def width (T i : ℕ) : ℚ := i / T

/-- `start_` (observer.py:83). -/
def start (T i j : ℕ) : ℚ := j * width T i

/-- `end_` (observer.py:84). -/
def stop (T i j : ℕ) : ℚ := start T i j + width T i

/-- `left_upper_` (observer.py:86). -/
def leftUpper (T i j : ℕ) : ℕ := ⌈start T i j⌉.toNat

/-- `right_lower_` (observer.py:87). -/
def rightLower (T i j : ℕ) : ℕ := ⌊stop T i j⌋.toNat

/-- `left_flag` (observer.py:89). -/
def leftFlag (T i j : ℕ) : Bool := decide ((leftUpper T i j : ℚ) > start T i j)

/-- `right_flag` (observer.py:90). -/
def rightFlag (T i j : ℕ) : Bool := decide ((rightLower T i j : ℚ) < stop T i j)

/-- `left_scale_` (observer.py:92). -/
def leftScale (T i j : ℕ) : ℚ := leftUpper T i j - start T i j

/-- `right_scale_` (observer.py:93). -/
def rightScale (T i j : ℕ) : ℚ := stop T i j - rightLower T i j

/-- `cumsum_dist`, `cumsum_nozeros` (observer.py:60-63). -/
def cumsum (h : ℕ → ℚ) : ℕ → ℚ
  | 0 => 0
  | k + 1 => cumsum h k + h k

/-- Entry `j` of `quantize_dis` (observer.py:95-97) and of `count_` (100-103). -/
def merged (T i : ℕ) (h : ℕ → ℚ) (j : ℕ) : ℚ :=
  (if leftFlag T i j then leftScale T i j * h (leftUpper T i j - 1) else 0) +
  (if rightFlag T i j then rightScale T i j * h (rightLower T i j) else 0) +
  (cumsum h (rightLower T i j) - cumsum h (leftUpper T i j))

/-- `is_nonzero_distribution` (observer.py:64-65), as numbers. -/
def nonzero (h : ℕ → ℚ) (k : ℕ) : ℚ := if h k ≠ 0 then 1 else 0

/-- `count_` (observer.py:100-103). -/
def count (T i : ℕ) (h : ℕ → ℚ) (j : ℕ) : ℚ := merged T i (nonzero h) j

/-- `to_expand_value_` (observer.py:105-107). -/
def toExpand (T i : ℕ) (h : ℕ → ℚ) (j : ℕ) : ℚ := if count T i h j ≠ 0 then merged T i h j / count T i h j else 0

/-- `a[idx] += val` of numpy, for the entries of `idx` and `val` that `sel` selects: an index that occurs several times receives only the last value. -/
def addAt (T : ℕ) (sel : ℕ → Bool) (idx : ℕ → ℕ) (val : ℕ → ℚ) (a : ℕ → ℚ) (k : ℕ) : ℚ :=
  match (List.range T).reverse.find? fun j => sel j && decide (idx j = k) with
  | some j => a k + val j
  | none => a k

/-- The loop over the whole bins that every part has (observer.py:119-120). -/
def addWhole (T i : ℕ) (h : ℕ → ℚ) : ℕ → (ℕ → ℚ) → ℕ → ℚ
  | 0, a => a
  | m + 1, a => addAt T (fun _ => true) (fun j => leftUpper T i j + m) (fun j => toExpand T i h j * nonzero h (leftUpper T i j + m)) (addWhole T i h m a)

/-- `expanded_dis` (observer.py:108-123).  `np.logical_and(count_flag, left_flag, is_nonzero…)` takes its third argument as the place for the result, so only the
two flags count. -/
def expanded (T i : ℕ) (h : ℕ → ℚ) : ℕ → ℚ :=
  let e₁ := addAt T (fun j => decide (count T i h j ≠ 0) && leftFlag T i j) (fun j => leftUpper T i j - 1) (fun j => toExpand T i h j * leftScale T i j) (fun _ => 0)
  let e₂ := addAt T (fun j => decide (count T i h j ≠ 0) && rightFlag T i j) (fun j => rightLower T i j) (fun j => toExpand T i h j * rightScale T i j) e₁
  let e₃ := addWhole T i h (rightLower T i 0 - 1) e₂
  addAt T (fun _ => true) (fun j => leftUpper T i j + rightLower T i 0 - 1)
    (fun j => toExpand T i h j * (if ⌊width T i⌋ - ((rightLower T i j : ℤ) - leftUpper T i j) = 0 then 1 else 0) * nonzero h (leftUpper T i j + rightLower T i 0 - 1)) e₃

/-- `candidate_dis` (observer.py:71-72). -/
def candidate (i : ℕ) (after : ℚ) (h : ℕ → ℚ) (k : ℕ) : ℚ := if k = i - 1 then h k + after else h k

/-- The loop over `i` (observer.py:67-130), `count` steps from `i` on, for a histogram with `n` bins and `last` = `m_bin_number - 1`; the state is
`after_threshold_sum`, `min_kl_divergence` and `threshold`.  `none` is the IndexError of `distribution[i]`. -/
def scan (kl : (ℕ → ℚ) → (ℕ → ℚ) → ℕ → Div) (T n last : ℕ) (h : ℕ → ℚ) : ℕ → ℕ → ℚ → Div → ℕ → Option ℕ
  | 0, _, _, _, thr => some thr
  | c + 1, i, after, best, thr =>
    let cur := kl (expanded T i h) (candidate i after h) i
    if i = last ∨ i < n then
      scan kl T n last h c (i + 1) (if i ≠ last then after - h i else 0)
        (if cur.lt best && decide (cur ≠ .num 1) then cur else best) (if cur.lt best && decide (cur ≠ .num 1) then i else thr)
    else none

/-- `_compute_threshold` (observer.py:40-132). -/
def computeThreshold (kl : (ℕ → ℚ) → (ℕ → ℚ) → ℕ → Div) (T n last : ℕ) (h : ℕ → ℚ) : Option ℕ :=
  scan kl T n last h (last + 1 - T) T (∑ x ∈ Finset.Ico T n, h x) .inf T

/-- `_non_linear_param_search` (observer.py:134-151) from the normalized histogram on. -/
def paramSearch (kl : (ℕ → ℚ) → (ℕ → ℚ) → ℕ → Div) (T full n : ℕ) (h : ℕ → ℚ) (lo hi : ℚ) : Option (ℚ × ℚ) := do
  let right ← computeThreshold kl T n full h
  let left ← computeThreshold kl T (min right n) (min right n) (fun k => if k < right then h (right - 1 - k) else 0)
  let w := (hi - lo) / n
  pure (lo + w * (right - left), lo + w * right)

end Verif.Model.KlRange
