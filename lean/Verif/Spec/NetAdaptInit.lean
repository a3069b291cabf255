import Mathlib.Data.Rat.Defs
import Mathlib.Data.Rat.Floor
import Mathlib.Algebra.Order.Ring.Rat
import Mathlib.Algebra.Order.Floor.Defs

/-!
Specification for C167: the settings of the NetAdapt pruner.
-/

namespace Verif.Spec.NetAdaptInit

/-- A value in a configuration. -/
inductive Val
  | int (n : ℤ)
  | float (q : ℚ)
  | bool (b : Bool)
  | str (s : String)
  | list
  | dict
  deriving DecidableEq

/-- A configuration. -/
abbrev Config := String → Option Val

/-- Exactly one of `budget` and `budget_ratio` is given, and the number of operations it stands for, if the model needs `flops`, is `b`. -/
def Budget (c : Config) (flops : ℕ) (b : ℤ) : Prop :=
  (c "budget" = some (.int b) ∧ 0 ≤ b ∧ c "budget_ratio" = none) ∨
  (∃ r : ℚ, c "budget_ratio" = some (.float r) ∧ 0 ≤ r ∧ r ≤ 1 ∧ c "budget" = none ∧ b = ⌊r * flops⌋)

/-- The settings the documentation asks for, with a budget. -/
structure Wellformed (known : String → Bool) (c : Config) : Prop where
  metrics : ∃ m, c "metrics" = some (.str m) ∧ known m = true
  kind : c "budget_type" = some (.str "flops")
  iter : ∃ n, c "netadapt_max_iter" = some (.int n) ∧ 0 < n
  rate : ∃ q, c "budget_reduce_rate_init" = some (.float q) ∧ 0 ≤ q ∧ q ≤ 1
  decay : ∃ q, c "budget_reduce_rate_decay" = some (.float q) ∧ 0 ≤ q ∧ q ≤ 1
  lr : ∃ q, c "netadapt_lr" = some (.float q) ∧ 0 < q ∧ q < 1
  rounds : c "netadapt_max_rounds" = none ∨ ∃ n, c "netadapt_max_rounds" = some (.int n) ∧ -1 ≤ n
  size : c "netadapt_min_feature_size" = none ∨ ∃ n, c "netadapt_min_feature_size" = some (.int n)
  dir : c "netadapt_dir" = none ∨ ∃ s, c "netadapt_dir" = some (.str s)
  others : ∀ k ∈ ["sparsity", "default_sparsity", "metric_func", "skip_last_fc", "bn_compensation", "exclude_ops", "multiple", "init_flops"], c k = none
  budget : (∃ b, c "budget" = some (.int b) ∧ 0 ≤ b ∧ c "budget_ratio" = none) ∨ (∃ r, c "budget_ratio" = some (.float r) ∧ 0 ≤ r ∧ r ≤ 1 ∧ c "budget" = none)

end Verif.Spec.NetAdaptInit
