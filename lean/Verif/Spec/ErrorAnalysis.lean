import Mathlib.Data.List.Perm.Basic
import Mathlib.Algebra.Order.Field.Rat

/-! Models under quantization-aware training, and what a report of errors should list. -/

namespace Verif.Spec.ErrorAnalysis

/-- Kinds of modules: those that collect statistics while training, fake quantizers, all others. -/
inductive Kind
  | plain | norm | fakeQuant
  deriving DecidableEq

/-- A module: its path, mode, switches, statistics and the number of hooks on it. -/
structure Node (S : Type) where
  path : String
  kind : Kind
  training : Bool
  fake : Bool
  observer : Bool
  stats : S
  hooks : ℕ
  deriving DecidableEq

/-- `rep` are `n` of the entries `all`, worst first, and no entry left out is worse. -/
def WorstFirst {α : Type} (err : α → ℚ) (n : ℕ) (all rep : List α) : Prop :=
  ∃ rest, (rep ++ rest).Perm all ∧ rep.length = min n all.length ∧ rep.Pairwise (fun a b => err a ≤ err b) ∧ ∀ a ∈ rep, ∀ b ∈ rest, err a ≤ err b

end Verif.Spec.ErrorAnalysis
