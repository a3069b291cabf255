import Verif.Spec.AxisOps

/-! `torch.gather`, `torch.scatter`, and TFLite's GATHER_ND and SCATTER_ND with index vectors of full rank. -/

namespace Verif.Spec

/-- `torch.gather(t, dim, index)`: element `idx` is read at `idx` with coordinate `dim` replaced by the index. -/
def torchGather {α : Type} (dim : Nat) (index : Tensor Nat) (t : Tensor α) : Tensor α := ⟨index.shape, fun idx => t.get (idx.set dim (index.get idx))⟩

/-- What `torch.gather` and `torch.scatter` demand of the index for a tensor of shape `s`: same rank, no larger than the tensor except along `dim`, entries inside the axis. -/
def IndexOk (s : List Nat) (dim : Nat) (index : Tensor Nat) : Prop :=
  dim < s.length ∧ index.shape.length = s.length ∧ (∀ a < s.length, a ≠ dim → index.shape.getD a 0 ≤ s.getD a 0) ∧
  ∀ idx, InBounds index.shape idx → index.get idx < s.getD dim 0

/-- `out` is a result of `torch.scatter(zeros(s), dim, index, src)`: an element that some index points to has the value of one of the source elements pointing there
(PyTorch leaves open which one), every other element is zero. -/
def IsScatter {α : Type} [Zero α] (s : List Nat) (dim : Nat) (index : Tensor Nat) (src : Tensor α) (out : Tensor α) : Prop :=
  out.shape = s ∧ ∀ p, InBounds s p →
    (∃ idx, InBounds index.shape idx ∧ idx.set dim (index.get idx) = p ∧ out.get p = src.get idx) ∨
    ((∀ idx, InBounds index.shape idx → idx.set dim (index.get idx) ≠ p) ∧ out.get p = 0)

/-- Row `idx` of a tensor of index vectors: its last axis holds the coordinates. -/
def indexVector (indices : Tensor Nat) (idx : List Nat) : List Nat :=
  (List.range (indices.shape.getD (indices.shape.length - 1) 0)).map (fun k => indices.get (idx ++ [k]))

/-- GATHER_ND. -/
def gatherNd {α : Type} (indices : Tensor Nat) (t : Tensor α) : Tensor α := ⟨indices.shape.dropLast, fun idx => t.get (indexVector indices idx)⟩

/-- SCATTER_ND into a zero tensor: updates for the same position are added. -/
def scatterNd {α : Type} [AddCommMonoid α] (indices : Tensor Nat) (updates : Tensor α) (s : List Nat) : Tensor α where
  shape := s
  get := fun p => (((allIndices indices.shape.dropLast).filter (fun idx => indexVector indices idx = p)).map updates.get).sum

end Verif.Spec
