/-! What a pruner that trains promises about its training items: settings win over the context, in the documented order, and what it needs must be there. -/

namespace Verif.Spec.PrunerContext

/-- A configuration or a context: the items by name; in a context every name has a value, `none` for Python's `None`. -/
abbrev Items (V : Type) := String → Option V

/-- The first of several settings that is given. -/
def firstGiven {V : Type} (config : Items V) : List String → Option V
  | [] => none
  | k :: ks => match config k with
    | some v => some v
    | none => firstGiven config ks

/-- The item the pruner should train with: the first of its settings that is given, or the item of the context. -/
def wantedItem {V : Type} (names : String → List String) (config context : Items V) (key : String) : Option V :=
  match firstGiven config (names key) with
  | some v => some v
  | none => context key

/-- The settings for the items, for the two pruners that train. -/
def admmNames : String → List String
  | "optimizer" => ["admm_optimizer", "optimizer"]
  | "criterion" => ["admm_criterion", "criterion"]
  | _ => []

def netadaptNames : String → List String
  | "optimizer" => ["netadapt_optimizer", "optimizer"]
  | "criterion" => ["netadapt_criterion", "criterion"]
  | _ => []

/-- What they need. -/
def needed : List String := ["val_loader", "train_loader", "train_func", "validate_func", "optimizer", "criterion"]

end Verif.Spec.PrunerContext
