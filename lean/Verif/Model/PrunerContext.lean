import Verif.Spec.PrunerContext

/-! Model of `BasePruner.parse_context`, /repo/tinynn/prune/base_pruner.py 104-120, with the tables of admm_pruner.py 14-19 and netadapt_pruner.py 38-43.  `truthy` is Python's truth
value of an item.  A context is a mutable object: the result is the object after the call. -/

namespace Verif.Model.PrunerContext
open Verif.Spec.PrunerContext

variable {V : Type}

/-- `setattr(context, key, v)`. -/
def put (c : Items V) (key : String) (v : V) : Items V := fun k => if k = key then some v else c k

/-- base_pruner.py 108-111: the inner loop, left at the first setting that is given. -/
def copyFirst (config : Items V) (key : String) : List String → Items V → Items V
  | [], c => c
  | p :: ps, c => match config p with
    | some v => put c key v
    | none => copyFirst config key ps c

/-- base_pruner.py 107-111: the outer loop over `context_from_params_dict`. -/
def copyAll (config : Items V) : List (String × List String) → Items V → Items V
  | [], c => c
  | (key, ps) :: t, c => copyAll config t (copyFirst config key ps c)

/-- base_pruner.py 104-120: the context after the call, and whether the pruner gets it (else an exception is raised; the context has been changed all the same). -/
def parseContext (truthy : V → Bool) (table : List (String × List String)) (required : List String) (config context : Items V) : Items V × Bool :=
  let c := copyAll config table context
  (c, required.all fun k => match c k with
    | some v => truthy v
    | none => false)

/-- admm_pruner.py 16-19. -/
def admmTable : List (String × List String) := [("optimizer", ["admm_optimizer", "optimizer"]), ("criterion", ["admm_criterion", "criterion"])]

/-- netadapt_pruner.py 40-43. -/
def netadaptTable : List (String × List String) := [("optimizer", ["netadapt_optimizer", "optimizer"]), ("criterion", ["netadapt_criterion", "criterion"])]

/-- admm_pruner.py 14 and netadapt_pruner.py 38. -/
def required : List String := ["val_loader", "train_loader", "train_func", "validate_func", "optimizer", "criterion"]

end Verif.Model.PrunerContext
