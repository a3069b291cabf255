import Verif.Spec.FusedBn
/-!
Model of `_ConvTransposeBnNd._load_from_state_dict`, tinynn/graph/quantization/qat_modules.py 527-559, up to the call of the method of the base class.
Simplifications: entries in checkpoints are named by lists of parts instead of strings with dots; the parts have no dots.
-/

namespace Verif.Model.FusedBn
open Verif.Spec.FusedBn

/-- `state_dict[k] = v`, or `state_dict.pop(k)`. -/
def put {V : Type} (d : Dict V) (k : Key) (v : Option V) : Dict V := fun k' => if k' = k then v else d k'

/-- `v2_to_v1_names`, 533-539. -/
def v2ToV1 : List (Key × String) :=
  [(["bn", "weight"], "gamma"), (["bn", "bias"], "beta"), (["bn", "running_mean"], "running_mean"), (["bn", "running_var"], "running_var"), (["bn", "num_batches_tracked"], "num_batches_tracked")]

/-- 541-555, for one name: the checkpoint and the names reported missing. -/
def rename {V : Type} (strict : Bool) (p : Key) (s : Dict V × List Key) (n : Key × String) : Dict V × List Key :=
  match s.1 (p ++ [n.2]) with
  | some v => (put (put s.1 (p ++ n.1) (some v)) (p ++ [n.2]) none, s.2)
  | none =>
    match s.1 (p ++ n.1) with
    | some _ => s
    | none => if strict then (s.1, s.2 ++ [p ++ n.1]) else s

/-- 530-555. -/
def loadFrom {V : Type} (version : Option Nat) (strict : Bool) (p : Key) (s : Dict V × List Key) : Dict V × List Key :=
  if version = none ∨ version = some 1 then v2ToV1.foldl (rename strict p) s else s

end Verif.Model.FusedBn
