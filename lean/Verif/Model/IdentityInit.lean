import Verif.Model.PruneConfig

/-!
Model of the construction of an `IdentityChannelPruner` (`tinynn/prune/identity_pruner.py` 14-33), which prepares the configuration, sets `bn_compensation` and calls
`OneShotChannelPruner.__init__` (`oneshot_pruner.py` 28-92, see `PruneConfig`).  The configuration after the call is returned, because it is the object of the caller.
-/

namespace Verif.Model.IdentityInit
open Verif.Spec.PruneConfig Verif.Model.PruneConfig

/-- A configuration with its entry `bn_compensation`. -/
structure IdConfig where
  base : Config
  bnCompensation : Option Bool
  deriving DecidableEq

/-- The argument `config`: nothing, a dictionary, or the path of a file with the given content. -/
inductive ConfigArg
  | absent
  | dict (c : IdConfig)
  | path (s : String) (content : IdConfig)
  deriving DecidableEq

/-- `isinstance`-free part of `__init__`, identity_pruner.py:25-31: the configuration given on.  For a path, line 29 or line 31 assigns to an item of a string: TypeError. -/
def prepare (a : ConfigArg) : Except String IdConfig :=
  match a with
  | .absent => .ok ⟨⟨some (.num 1), some "l2_norm", none, none⟩, none⟩
  | .dict c => .ok { c with base := { c.base with metrics := some (c.base.metrics.getD "l2_norm"), sparsity := some (.num 1) } }
  | .path _ _ => .error "TypeError"

/-- The attribute `bn_compensation` while the object is built: `flag0` is its value when `OneShotChannelPruner.__init__` is entered; line 45 sets it to False, line 104 of `parse_config` reads the configuration. -/
def flag (_flag0 : Bool) (c : IdConfig) : Bool :=
  let flag1 := false
  c.bnCompensation.getD flag1

/-- The constructor: the pruner, whether it compensates, and the configuration afterwards. -/
def construct (known : String → Bool) (a : ConfigArg) (ops : List Op) (subs : List (List Op)) : Except String (Pruner × Bool × IdConfig) :=
  match prepare a with
  | .error e => .error e
  | .ok c =>
    match PruneConfig.construct known c.base ops subs with
    | .error e => .error e
    | .ok (p, c') => .ok (p, flag true c, { c with base := c' })

end Verif.Model.IdentityInit
