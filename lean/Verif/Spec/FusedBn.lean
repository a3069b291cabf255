/-!
Checkpoints of fused transposed convolutions with batch norm (C158).  In the first version of the layer the entries of the batch norm were entries of the layer itself.
-/

namespace Verif.Spec.FusedBn

/-- Names of entries in a checkpoint, in parts: the path of the layer, then the name in the layer. -/
abbrev Key := List String

/-- A checkpoint. -/
abbrev Dict (V : Type) := Key → Option V

/-- The state of the layer: its own weight and bias, the state of its batch norm, and the states of its observers. -/
structure Layer (V : Type) where
  weight : V
  bias : Option V
  gamma : V
  beta : V
  mean : V
  var : V
  batches : V
  observers : Key → Option V

/-- The entries of a layer in a checkpoint of the first version. -/
def Layer.entries1 {V : Type} (l : Layer V) (k : Key) : Option V :=
  if k = ["weight"] then some l.weight
  else if k = ["bias"] then l.bias
  else if k = ["gamma"] then some l.gamma
  else if k = ["beta"] then some l.beta
  else if k = ["running_mean"] then some l.mean
  else if k = ["running_var"] then some l.var
  else if k = ["num_batches_tracked"] then some l.batches
  else if k.head? = some "weight_fake_quant" ∨ k.head? = some "activation_post_process" then l.observers k
  else none

/-- The entries of a layer in a checkpoint of the second version. -/
def Layer.entries2 {V : Type} (l : Layer V) (k : Key) : Option V :=
  if k = ["weight"] then some l.weight
  else if k = ["bias"] then l.bias
  else if k = ["bn", "weight"] then some l.gamma
  else if k = ["bn", "bias"] then some l.beta
  else if k = ["bn", "running_mean"] then some l.mean
  else if k = ["bn", "running_var"] then some l.var
  else if k = ["bn", "num_batches_tracked"] then some l.batches
  else if k.head? = some "weight_fake_quant" ∨ k.head? = some "activation_post_process" then l.observers k
  else none

/-- `d` holds these entries under the path `p`. -/
def Holds {V : Type} (d : Dict V) (p : Key) (e : Key → Option V) : Prop := ∀ k, d (p ++ k) = e k

end Verif.Spec.FusedBn
