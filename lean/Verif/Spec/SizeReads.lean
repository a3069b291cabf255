/-!
Sizes read in a model (C159).  A model reads `.shape` of tensors in some order; what it then computes is traced with the sizes one input gives, and run again with the sizes other inputs give.
-/

namespace Verif.Spec.SizeReads

/-- The model reads `.shape` of a tensor; the object it gets is at `address` for as long as it lives. -/
structure Read where
  tensor : Nat
  address : Nat
  deriving DecidableEq

/-- What the model reads, if the sizes of its tensors are `sizes`. -/
def expected (sizes : Nat → List Nat) (rs : List Read) : List (List Nat) := rs.map fun r => sizes r.tensor

end Verif.Spec.SizeReads
