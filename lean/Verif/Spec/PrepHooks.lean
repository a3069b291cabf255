import Mathlib.Data.List.Basic
/-!
What preparing a model for quantization may do to its modules: it gives the modules that work on quantized values an observer, and leaves the hooks of the user alone.
-/

namespace Verif.Spec.PrepHooks

/-- Forward hooks of a module: one of the user, or the one that calls the observer. -/
inductive Hook where
  | user (n : ℕ)
  | observe
  deriving DecidableEq

/-- The user's hooks, in the order they run. -/
def userHooks (l : List Hook) : List ℕ := l.filterMap fun h => match h with
  | .user n => some n
  | .observe => none

/-- A use of a module in the computation graph. -/
structure Use where
  mod : ℕ
  quantized : Bool

/-- Modules that only work on values that are not quantized. -/
def FloatOnly (uses : List Use) (m : ℕ) : Prop := (∃ u ∈ uses, u.mod = m) ∧ ∀ u ∈ uses, u.mod = m → u.quantized = false

end Verif.Spec.PrepHooks
