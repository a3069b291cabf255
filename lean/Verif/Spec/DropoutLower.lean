import Mathlib.Data.Real.Basic
import Mathlib.Data.Fintype.BigOperators

/-!
Specification for C146: PyTorch's dropout as a random function.  A sample says for every element whether it is kept.
-/

namespace Verif.Spec.DropoutLower
open scoped BigOperators

/-- A random function of tensors with elements indexed by `ι`: how likely each sample is and what it gives. -/
structure Random (ι : Type) where
  prob : (ι → Bool) → ℝ
  out : (ι → Bool) → ι → ℝ

/-- `torch.dropout(x, p, train=True)`: every element is kept with probability `1 - p`, independently of the others, and divided by it. -/
noncomputable def dropout {ι : Type} [Fintype ι] (p : ℝ) (x : ι → ℝ) : Random ι :=
  ⟨fun m => ∏ i, if m i then 1 - p else p, fun m i => if m i then x i / (1 - p) else 0⟩

/-- The mean of the result at one element. -/
noncomputable def Random.mean {ι : Type} [Fintype ι] [DecidableEq ι] (r : Random ι) (i : ι) : ℝ := ∑ m, r.prob m * r.out m i

end Verif.Spec.DropoutLower
