import Verif.Spec.Tensor

/-! GATHER along one axis with an index tensor of any rank. -/

namespace Verif.Spec

/-- TFLite's GATHER: axis `a` is replaced by the axes of the index tensor. -/
def gatherT {α : Type} (a : Nat) (ix : Tensor Nat) (t : Tensor α) : Tensor α where
  shape := t.shape.take a ++ ix.shape ++ t.shape.drop (a + 1)
  get := fun idx => t.get (idx.take a ++ [ix.get ((idx.drop a).take ix.shape.length)] ++ idx.drop (a + ix.shape.length))

end Verif.Spec
