import Verif.Spec.NetAdaptInit
import Verif.Model.PruneConfig

/-!
Model of the construction of `NetAdaptPruner` (`/repo/tinynn/prune/netadapt_pruner.py` 29-125) on top of `OneShotChannelPruner.__init__` (`oneshot_pruner.py` 29-92) and
`BasePruner.parse_config` (`base_pruner.py` 62-101).  The attributes of the object are a list of names: reading one that was never set is an exception.
-/

namespace Verif.Model.NetAdaptInit
open Verif.Spec.NetAdaptInit

/-- The types of the annotations. -/
inductive Ty
  | int | float | bool | str | list | floatOrDict | callable
  deriving DecidableEq

/-- `isinstance` (base_pruner.py:88-92); a boolean is an int. -/
def isInstance : Ty → Val → Bool
  | .int, .int _ => true
  | .int, .bool _ => true
  | .float, .float _ => true
  | .bool, .bool _ => true
  | .str, .str _ => true
  | .list, .list => true
  | .floatOrDict, .float _ => true
  | .floatOrDict, .dict => true
  | _, _ => false

/-- The annotations of `OneShotChannelPruner` (oneshot_pruner.py:19-27) and `NetAdaptPruner` (netadapt_pruner.py:53-63). -/
def annotations : List (String × Ty) :=
  [("metrics", .str), ("sparsity", .floatOrDict), ("default_sparsity", .float), ("metric_func", .callable), ("skip_last_fc", .bool), ("bn_compensation", .bool),
    ("exclude_ops", .list), ("multiple", .int), ("budget", .int), ("budget_ratio", .float), ("budget_type", .str), ("budget_reduce_rate_init", .float),
    ("budget_reduce_rate_decay", .float), ("netadapt_max_iter", .int), ("netadapt_lr", .float), ("netadapt_max_rounds", .int), ("netadapt_min_feature_size", .int),
    ("netadapt_dir", .str), ("init_flops", .int)]

/-- `required_params` (netadapt_pruner.py:30-37). -/
def required : List String := ["budget_type", "metrics", "netadapt_max_iter", "budget_reduce_rate_init", "budget_reduce_rate_decay", "netadapt_lr"]

/-- `default_values` (netadapt_pruner.py:39). -/
def defaults : List (String × Val) := [("netadapt_dir", .str "netadapt_train/"), ("netadapt_max_rounds", .int (-1)), ("netadapt_min_feature_size", .int 8)]

/-- The configuration with its defaults (base_pruner.py:75-77). -/
def filled (c : Config) : Config := fun k => match c k with
  | some v => some v
  | none => defaults.lookup k

/-- A number in a comparison. -/
def num : Val → ℚ
  | .int n => n
  | .float q => q
  | .bool b => if b then 1 else 0
  | _ => 0

/-- The value of a key in a comparison. -/
def at' (c : Config) (k : String) : ℚ := match c k with
  | some v => num v
  | none => 0

/-- `condition_dict` (netadapt_pruner.py:44-51). -/
def conditions (c : Config) : Bool :=
  decide (0 < at' c "netadapt_max_iter") && decide (0 ≤ at' c "budget_reduce_rate_init" ∧ at' c "budget_reduce_rate_init" ≤ 1) &&
  decide (0 ≤ at' c "budget_reduce_rate_decay" ∧ at' c "budget_reduce_rate_decay" ≤ 1) && decide (0 < at' c "netadapt_lr" ∧ at' c "netadapt_lr" < 1) &&
  decide (-1 ≤ at' c "netadapt_max_rounds") && ["flops", "weights", "latency"].any (fun s => decide (c "budget_type" = some (.str s)))

/-- The checks of `budget` and `budget_ratio` (netadapt_pruner.py:99-125); `int` rounds towards zero, the ratio is not negative. -/
def budgetOf (c : Config) (flops : ℕ) : Except String ℤ :=
  match c "budget", c "budget_ratio" with
  | some b, some _ => if num b < 0 then .error "value" else .error "either budget or budget_ratio"
  | none, none => .error "either budget or budget_ratio"
  | some (.int b), none => if b < 0 then .error "value" else .ok b
  | some (.bool b), none => .ok (if b then 1 else 0)
  | some _, none => .error "type"
  | none, some (.float r) => if r < 0 ∨ 1 < r then .error "value" else .ok ⌊r * flops⌋
  | none, some _ => .error "type"

/-- The type check of every annotated setting that is given (base_pruner.py:64-81). -/
def typed (c : Config) : Bool := annotations.all fun a => match c a.1 with
  | some v => isInstance a.2 v
  | none => true

/-- `NetAdaptPruner.parse_config` (netadapt_pruner.py:76-125): the attributes it sets and the budget. -/
def parse (known : String → Bool) (flops : ℕ) (c : Config) : Except String (List String × ℤ) :=
  if !required.all (fun k => (c k).isSome) then .error "Missing param"
  else if !typed (filled c) then .error "type"
  else if !conditions (filled c) then .error "value"
  else match filled c "metrics" with
    | some (.str m) =>
      if !known m then .error "metrics"
      else if filled c "budget_type" ≠ some (.str "flops") then .error "NotImplementedError"
      else match budgetOf (filled c) flops with
        | .error e => .error e
        | .ok b => .ok ((required ++ defaults.map Prod.fst).filter (fun k => !["sparsity", "metrics"].contains k) ++ ["metric_func", "init_flops", "budget"], b)
    | _ => .error "type"

/-- The attributes that are there before `parse_config`: `NetAdaptPruner.__init__` (netadapt_pruner.py:66-67), `BasePruner.__init__` (base_pruner.py:42-46) and
`OneShotChannelPruner.__init__` (oneshot_pruner.py:43-45).  Annotations are not attributes. -/
def before : List String :=
  ["default_sparsity", "original_channels", "model", "config", "dummy_input", "graph", "center_nodes", "sparsity", "bn_compensation"]

/-- `NetAdaptPruner.__init__`: the attributes and the budget of the pruner (oneshot_pruner.py:46-92); the comparison of the rates does not fail. -/
def construct (known : String → Bool) (flops : ℕ) (c : Config) (ops : List Verif.Spec.PruneConfig.Op) : Except String (List String × ℤ) :=
  match parse known flops c with
  | .error e => .error e
  | .ok (set, b) =>
    if (ops.filter Verif.Model.PruneConfig.isCenter).isEmpty then .error "No operations to prune"
    else if !(before ++ set).contains "skip_last_fc" then .error "AttributeError: skip_last_fc"
    else if !(before ++ set).contains "exclude_ops" then .error "AttributeError: exclude_ops"
    else .ok (before ++ set ++ ["graph_modifier"], b)

end Verif.Model.NetAdaptInit
