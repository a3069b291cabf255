import Mathlib.Analysis.Real.Sqrt

/-! Batch normalization, for one channel, in exact arithmetic. -/

namespace Verif.Spec.BnRestore

/-- Evaluation mode: normalize with the stored statistics, then scale and shift. -/
noncomputable def batchNorm (mean var eps weight bias x : ℝ) : ℝ := (x - mean) / Real.sqrt (var + eps) * weight + bias

/-- The average over a history of batches that batch normalization keeps: every batch moves it by the momentum. -/
def running (momentum first : ℝ) : List ℝ → ℝ
  | [] => first
  | x :: xs => running momentum ((1 - momentum) * first + momentum * x) xs

/-- A module with other modules below it, as paths to objects in order of traversal; an object may have more than one path. `conv` says which objects are supported convolutions. -/
structure Net where
  paths : List (String × ℕ)
  conv : ℕ → Bool

end Verif.Spec.BnRestore
